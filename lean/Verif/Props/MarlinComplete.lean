/- Property C83: an honest Marlin proof is accepted. -/
import Verif.Proof.MarlinEx97

set_option linter.unusedSectionVars false
set_option linter.unusedSimpArgs false

namespace Zkp.Marlin

open Polynomial

variable {F : Type} [Field F] [DecidableEq F]
variable {G1 G2 GT : Type} [AddCommGroup G1] [AddCommGroup G2] [AddCommGroup GT]
  [Module F G1] [Module F G2] [Module F GT]

/-- All polynomials, in order. -/
noncomputable def allPolys (d : IndexData F) (o1 : FirstOracles F) (o2 : SecondOracles F) (o3 : ThirdOracles F)
    (H K : Domain F) : List (Kzg.LabeledPolynomial F) :=
  d.polys ++ (o1.polys ++ o2.polys H ++ o3.polys K)

theorem allPolys_labels (d : IndexData F) (o1 : FirstOracles F) (o2 : SecondOracles F) (o3 : ThirdOracles F)
    (H K : Domain F) : (allPolys d o1 o2 o3 H K).map (·.label) = indexLabels ++ proverLabels := rfl

theorem allPolys_nodup (d : IndexData F) (o1 : FirstOracles F) (o2 : SecondOracles F) (o3 : ThirdOracles F)
    (H K : Domain F) : ((allPolys d o1 o2 o3 H K).map (·.label)).Nodup := by
  rw [allPolys_labels]
  decide +kernel

theorem find_label {ps : List (Kzg.LabeledPolynomial F)} (hn : (ps.map (·.label)).Nodup)
    {p : Kzg.LabeledPolynomial F} (hp : p ∈ ps) : ps.find? (fun q => q.label = p.label) = some p := by
  induction ps with
  | nil => cases hp
  | cons q ps ih =>
    rw [List.map_cons, List.nodup_cons] at hn
    rw [List.find?_cons]
    rcases List.mem_cons.mp hp with rfl | hp
    · simp
    · have : q.label ≠ p.label := fun h => hn.1 (h ▸ List.mem_map_of_mem hp)
      simp only [this, decide_false]
      exact ih hn.2 hp

theorem lookup_label {ps : List (Kzg.LabeledPolynomial F)} (hn : (ps.map (·.label)).Nodup)
    {p : Kzg.LabeledPolynomial F} (hp : p ∈ ps) :
    Kzg.lookupLast Kzg.LabeledPolynomial.label ps p.label = some p := by
  unfold Kzg.lookupLast
  refine find_label (ps := ps.reverse) ?_ (List.mem_reverse.mpr hp)
  rw [List.map_reverse]
  exact List.nodup_reverse.mpr hn

/-- The value of the first polynomial with the label. -/
noncomputable def valOf (ps : List (Kzg.LabeledPolynomial F)) (q : String × F) : F :=
  match ps.find? fun p => p.label = q.1 with
  | some p => p.polynomial.eval q.2
  | none => 0

theorem evalQuery_mapM {ps : List (Kzg.LabeledPolynomial F)} {qs : List (String × F)} {r : List F}
    (h : qs.mapM (evalQuery ps) = .ok r) : r = qs.map (valOf ps) := by
  rw [Kzg.mapM_ok] at h
  induction h with
  | nil => rfl
  | @cons a b _ _ h1 _ ih =>
    rw [List.map_cons, ← ih]
    congr 1
    unfold evalQuery at h1
    unfold valOf
    cases hf : ps.find? fun p => p.label = a.1 with
    | none => rw [hf] at h1; cases h1
    | some p => rw [hf] at h1; injection h1 with h1; exact h1.symm

theorem finish_ok {rng : FsRng F G1 G2} {ipk : IndexProverKey F G1 G2} {pi : List F} {s : VState F}
    {o1 : FirstOracles F} {o2 : SecondOracles F} {o3 : ThirdOracles F} {H K : Domain F}
    {r1 r2 r3 : List (Kzg.LabeledCommitment G1 × Kzg.Randomness F)} {proof : Proof F G1}
    (h : finish rng ipk pi s (o1.polys ++ o2.polys H ++ o3.polys K) r1 r2 r3 = .ok proof) :
    ∃ (val : String × F → F) (openings : List (Kzg.Proof F G1)),
      proof = ⟨[r1.map (·.1.commitment), r2.map (·.1.commitment), r3.map (·.1.commitment)],
        (querySet s).map val, openings⟩ ∧
      Kzg.batchOpen ipk.committer_key (allPolys ipk.index o1 o2 o3 H K) (querySet s)
        (rng.opening [.seed ipk.index_verifier_key pi, .comms (r1.map (·.1.commitment)),
          .comms (r2.map (·.1.commitment)), .comms (r3.map (·.1.commitment)), .evals ((querySet s).map val)])
        (ipk.index_rands ++ r1.map (·.2) ++ r2.map (·.2) ++ r3.map (·.2)) = .ok openings ∧
      ∀ p ∈ allPolys ipk.index o1 o2 o3 H K, ∀ z, val (p.label, z) = p.polynomial.eval z := by
  unfold finish at h
  dsimp only at h
  obtain ⟨evals, h1, h⟩ := Kzg.bind_ok h
  obtain ⟨op, h2, h⟩ := Kzg.bind_ok h
  injection h with h
  have hev := evalQuery_mapM h1
  subst hev
  refine ⟨valOf (allPolys ipk.index o1 o2 o3 H K), op, h.symm, liftPc_ok h2, fun p hp z => ?_⟩
  unfold valOf
  rw [find_label (allPolys_nodup _ _ _ _ _ _) hp]

/-- The verifier's equations follow from those of the polynomials. -/
theorem checks_ok {mk : Nat → Option (Domain F)} {vs : VState F} {inputs pi : List F} {D : Domain F}
    {d : IndexData F} {o1 : FirstOracles F} {o2 : SecondOracles F} {o3 : ThirdOracles F} {H K : Domain F}
    {ev : String → F → Option F} {val : String × F → F} (hD : mk inputs.length = some D)
    (hin : inputs = 1 :: pi)
    (hget : ∀ l z, (l, z) ∈ querySet vs → getEval ev l z = .ok (val (l, z)))
    (hval : ∀ p ∈ allPolys d o1 o2 o3 H K, ∀ z, val (p.label, z) = p.polynomial.eval z)
    (hout : outerCheck vs (D.vanishing vs.beta) ((interpolate D inputs).eval vs.beta) (o1.mask.eval vs.beta)
      (o1.za.eval vs.beta) (o1.zb.eval vs.beta) (o1.w.eval vs.beta) (o2.t.eval vs.beta)
      (o2.h1.eval vs.beta) (o2.g1.eval vs.beta) = true)
    (hinn : innerCheck vs (o3.h2.eval vs.gamma) (o3.g2.eval vs.gamma) (o2.t.eval vs.beta)
      (d.a_star.val.eval vs.gamma) (d.b_star.val.eval vs.gamma) (d.c_star.val.eval vs.gamma)
      (denom vs (d.a_star.row.eval vs.gamma) (d.a_star.col.eval vs.gamma) (d.a_star.row_col.eval vs.gamma))
      (denom vs (d.b_star.row.eval vs.gamma) (d.b_star.col.eval vs.gamma) (d.b_star.row_col.eval vs.gamma))
      (denom vs (d.c_star.row.eval vs.gamma) (d.c_star.col.eval vs.gamma) (d.c_star.row_col.eval vs.gamma)) = true) :
    equalityCheck mk vs pi ev = .ok true := by
  subst hin
  have hd : domain mk (1 :: pi).length = .ok D := by
    unfold domain
    rw [hD]
  have hmem : ∀ p, p ∈ d.polys ∨ p ∈ o1.polys ∨ p ∈ o2.polys H ∨ p ∈ o3.polys K → ∀ z,
      val (p.label, z) = p.polynomial.eval z := by
    intro p hp z
    refine hval p ?_ z
    unfold allPolys
    simp only [List.mem_append]
    tauto
  have g : ∀ (l : String) (z : F) (q : F[X]) b hb, (⟨l, q, b, hb⟩ ∈ d.polys ∨ ⟨l, q, b, hb⟩ ∈ o1.polys ∨
      ⟨l, q, b, hb⟩ ∈ o2.polys H ∨ ⟨l, q, b, hb⟩ ∈ o3.polys K) → (l, z) ∈ querySet vs →
      getEval ev l z = .ok (q.eval z) := fun l z q b hb h1 h2 => by rw [hget l z h2, hmem ⟨l, q, b, hb⟩ h1]
  unfold equalityCheck
  rw [hd, g "mask" vs.beta o1.mask none none (by simp [FirstOracles.polys]) (by simp [querySet]),
    g "z_a" vs.beta o1.za none (some 1) (by simp [FirstOracles.polys]) (by simp [querySet]),
    g "z_b" vs.beta o1.zb none (some 1) (by simp [FirstOracles.polys]) (by simp [querySet]),
    g "w" vs.beta o1.w none (some 1) (by simp [FirstOracles.polys]) (by simp [querySet]),
    g "t" vs.beta o2.t none none (by simp [SecondOracles.polys]) (by simp [querySet]),
    g "h_1" vs.beta o2.h1 none none (by simp [SecondOracles.polys]) (by simp [querySet]),
    g "g_1" vs.beta o2.g1 (some (H.size - 2)) (some 1) (by simp [SecondOracles.polys]) (by simp [querySet])]
  simp only [bind, Except.bind]
  rw [if_pos hout]
  unfold innerRound
  rw [g "h_2" vs.gamma o3.h2 none none (by simp [ThirdOracles.polys]) (by simp [querySet]),
    g "g_2" vs.gamma o3.g2 (some (K.size - 2)) none (by simp [ThirdOracles.polys]) (by simp [querySet]),
    g "a_val" vs.gamma d.a_star.val none none (by simp [IndexData.polys]) (by simp [querySet]),
    g "a_row" vs.gamma d.a_star.row none none (by simp [IndexData.polys]) (by simp [querySet]),
    g "a_col" vs.gamma d.a_star.col none none (by simp [IndexData.polys]) (by simp [querySet]),
    g "a_row_col" vs.gamma d.a_star.row_col none none (by simp [IndexData.polys]) (by simp [querySet]),
    g "b_val" vs.gamma d.b_star.val none none (by simp [IndexData.polys]) (by simp [querySet]),
    g "b_row" vs.gamma d.b_star.row none none (by simp [IndexData.polys]) (by simp [querySet]),
    g "b_col" vs.gamma d.b_star.col none none (by simp [IndexData.polys]) (by simp [querySet]),
    g "b_row_col" vs.gamma d.b_star.row_col none none (by simp [IndexData.polys]) (by simp [querySet]),
    g "c_val" vs.gamma d.c_star.val none none (by simp [IndexData.polys]) (by simp [querySet]),
    g "c_row" vs.gamma d.c_star.row none none (by simp [IndexData.polys]) (by simp [querySet]),
    g "c_col" vs.gamma d.c_star.col none none (by simp [IndexData.polys]) (by simp [querySet]),
    g "c_row_col" vs.gamma d.c_star.row_col none none (by simp [IndexData.polys]) (by simp [querySet])]
  simp only [bind, Except.bind]
  rw [hinn]

/-- The full statement: for an indexed circuit and a satisfying assignment of it, whatever the prover's coins
are, the prover outputs a proof and the verifier accepts it. -/
def C83_statement (F G1 G2 GT : Type) [Field F] [DecidableEq F] [AddCommGroup G1] [AddCommGroup G2]
    [AddCommGroup GT] [Module F G1] [Module F G2] [Module F GT] [DecidableEq GT]
    (mk : Nat → Option (Domain F)) (rng : FsRng F G1 G2) (e : G1 →ₗ[F] G2 →ₗ[F] GT) : Prop :=
  ∀ (checked : Bool) (N : Nat) (τ : F) (g γ : G1) (h : G2) (cs0 cs : CS F) (ipk : IndexProverKey F G1 G2)
    (ivk : IndexVerifierKey F G1 G2) (pi : List F) (coins : Coins F),
    index checked mk (Kzg.setup N τ g γ h) cs0 = .ok (ipk, ivk) → cs.constraints = cs0.constraints →
    cs.inputs.length = cs0.inputs.length → cs.aux.length = cs0.aux.length → cs.Valid → cs.inputs = 1 :: pi →
    (∀ l, (coins.hide l).1.natDegree ≤ 1 ∧ (coins.hide l).2.natDegree ≤ 1) →
    ∃ proof, prove mk rng ipk cs coins = .ok proof ∧ verify mk rng e ivk proof pi = .ok true

/-- Proofs that the prover outputs are accepted, if the number of inputs (with the one) is a power of two and
the blinding constants of `z_a` and `z_b` are not zero: for every circuit, satisfying assignment, trapdoor,
masking polynomial and random oracle.  Missing for the full statement: that there is an output (false, see
`C83_few_entries`, `C83_small` and `C83_no_room`), other numbers of inputs (false, see `C36_misplaced`), and
the blinding constant zero. -/
theorem C83_partial {checked : Bool} {mk : Nat → Option (Domain F)} (hmk : MkOk mk) [DecidableEq GT]
    (rng : FsRng F G1 G2) (e : G1 →ₗ[F] G2 →ₗ[F] GT) {N : Nat} {τ : F} {g γ : G1} {h : G2} {cs0 cs : CS F}
    {ipk : IndexProverKey F G1 G2} {ivk : IndexVerifierKey F G1 G2}
    (hi : index checked mk (Kzg.setup N τ g γ h) cs0 = .ok (ipk, ivk))
    (hc : cs.constraints = cs0.constraints) (hl : cs.inputs.length = cs0.inputs.length) (hv : cs.Valid)
    {pi : List F} (hin : cs.inputs = 1 :: pi) (hpow : ∃ k, cs.inputs.length = 2 ^ k)
    {coins : Coins F} (hza : coins.za ≠ 0) (hzb : coins.zb ≠ 0)
    (hhide : ∀ l, (coins.hide l).1.natDegree ≤ 1 ∧ (coins.hide l).2.natDegree ≤ 1)
    {proof : Proof F G1} (hp : prove mk rng ipk cs coins = .ok proof) :
    verify mk rng e ivk proof pi = .ok true := by
  obtain ⟨H, K, deg, key⟩ := index_ok hmk hi
  have hidx := index_ahp hi
  have hdeg4 : 1 ≤ deg := by have := key.hdeg; omega
  have hhide' : ∀ l, (coins.hide l).1.natDegree ≤ deg ∧ (coins.hide l).2.natDegree ≤ deg :=
    fun l => ⟨(hhide l).1.trans hdeg4, (hhide l).2.trans hdeg4⟩
  unfold prove at hp
  obtain ⟨s, hs, hp⟩ := Kzg.bind_ok hp
  dsimp only at hp
  obtain ⟨o1, ho1, hp⟩ := Kzg.bind_ok hp
  obtain ⟨r1, hr1, hp⟩ := Kzg.bind_ok hp
  obtain ⟨v, hv1, hp⟩ := Kzg.bind_ok hp
  obtain ⟨o2, ho2, hp⟩ := Kzg.bind_ok hp
  obtain ⟨r2, hr2, hp⟩ := Kzg.bind_ok hp
  obtain ⟨β, hβ, hp⟩ := Kzg.bind_ok hp
  obtain ⟨o3, ho3, hp⟩ := Kzg.bind_ok hp
  obtain ⟨r3, hr3, hp⟩ := Kzg.bind_ok hp
  obtain ⟨s1, s2, s3, s4, s5, hD, hH, hK⟩ := init_ok hs
  have hpi : s.inputs.tail = pi := by rw [s1, hin, List.tail_cons]
  rw [hpi, key.hivk] at hv1 hβ
  rw [hpi] at hp
  rw [key.hivk] at hp
  rw [key.hck] at hr1 hr2 hr3
  -- domains
  have hH' := key.hH
  have hK' := key.hK
  rw [key.hinfo] at hH hK
  rw [hH] at hH'
  rw [hK] at hK'
  have hH' := Option.some.inj hH'
  have hK' := Option.some.inj hK'
  rw [← hH', ← hK'] at key
  have hch := challenges_staged hv1 hβ (r3.map (·.1.commitment))
  set γ' := rng.draw [.seed ivk pi, .comms (r1.map (·.1.commitment)), .comms (r2.map (·.1.commitment)),
    .comms (r3.map (·.1.commitment))] 0 with hγ'
  obtain ⟨c1, c2, hα, hβ', -⟩ := challenges_ok hch
  dsimp only at c1 c2 hα hβ'
  have ev1 : v.1 = s.H := by rw [hH] at c1; exact (Option.some.inj c1).symm
  have ev2 : v.2.1 = s.K := by rw [hK] at c2; exact (Option.some.inj c2).symm
  rw [ev1] at hα hβ'
  rw [ev1, ev2] at hch hp
  obtain ⟨m1, m2, m⟩ := v
  dsimp only at ev1 ev2 hα hβ' hch hp ho2 ho3
  set vs : VState F := ⟨s.H, s.K, m.alpha, m.eta_a, m.eta_b, m.eta_c, β, γ'⟩ with hvs
  have vH := hmk.valid hH
  have vK := hmk.valid hK
  have hw : o1.w ≠ 0 := by
    have h1 := commitAll_deg (p := ⟨"w", o1.w, none, some 1⟩) (hhide' "w").1 (by simp [FirstOracles.polys]) hr1
    intro h0
    dsimp only at h1
    rw [h0, natDegree_zero] at h1
    omega
  obtain ⟨hH2, et, hout⟩ := outer_honest hmk hidx hc hl hv hpow hs hza hzb ho1 hw hα ho2 β γ'
  have hK0 : mk ivk.info.num_non_zeros = some s.K := hK
  obtain ⟨hK2, eg2, eh2⟩ := third_ok (γ := γ') hmk vH hK0 hα hβ' key.ga key.gb key.gc ho3
  have ht := t_at_beta (d := ipk.index) (m := m) (γ := γ') vH vK hK2 hα hβ' key.ga key.gb key.gc
  obtain ⟨val, op, hproof, hopen, hval⟩ := finish_ok hp
  rw [key.hivk, key.hck] at hopen
  have hget : ∀ l z, (l, z) ∈ querySet vs →
      getEval (evalMap (querySet vs) ((querySet vs).map val)) l z = .ok (val (l, z)) :=
    fun l z hl => getEval_map _ _ hl
  have heq : equalityCheck mk vs pi (evalMap (querySet vs) ((querySet vs).map val)) = .ok true := by
    refine checks_ok hD (by rw [s1, hin]) hget hval hout ?_
    rw [et, ht, eg2, eh2]
    exact inner_forged (s := vs) vH vK hα hβ' key.ga key.gb key.gc
  -- the commitments
  obtain ⟨ts0, a1, a2, a3, a4⟩ := key.comms
  obtain ⟨ts1, b1, b2, b3, b4⟩ := commitAll_commits hhide' hr1
  obtain ⟨ts2, d1, d2, d3, d4⟩ := commitAll_commits hhide' hr2
  obtain ⟨ts3, e1, e2, e3, e4⟩ := commitAll_commits hhide' hr3
  set ts := ts0 ++ (ts1 ++ ts2 ++ ts3) with hts
  have hmap : allPolys ipk.index o1 o2 o3 s.H s.K = ts.map (·.1) := by
    unfold allPolys
    rw [hts, List.map_append, List.map_append, List.map_append, a1, b1, d1, e1]
  have hcom : ∀ t ∈ ts, Kzg.Commits τ g γ deg t.1 t.2.1 t.2.2 := by
    intro t ht
    rw [hts] at ht
    simp only [List.mem_append] at ht
    rcases ht with ht | (ht | ht) | ht
    · exact a4 t ht
    · exact b4 t ht
    · exact d4 t ht
    · exact e4 t ht
  have hrand : ipk.index_rands ++ r1.map (·.2) ++ r2.map (·.2) ++ r3.map (·.2) = ts.map (·.2.2) := by
    rw [hts, List.map_append, List.map_append, List.map_append, a3, b3, d3, e3]
    simp only [List.append_assoc]
  have hcomm : ivk.index_comms ++ r1.map (·.1.commitment) ++ r2.map (·.1.commitment) ++ r3.map (·.1.commitment)
      = ts.map (·.2.1.commitment) := by
    rw [hts, List.map_append, List.map_append, List.map_append, a2, b2, d2, e2]
    simp only [List.append_assoc]
  have hlen : ivk.index_comms.length = 12 := by
    have := congrArg List.length a1
    rw [a2, List.length_map]
    rw [List.length_map] at this
    exact this.symm
  have hbounds : degreeBounds mk ivk.info
      = .ok [none, none, none, none, none, some (s.H.size - 2), none, some (s.K.size - 2), none] := by
    unfold degreeBounds
    rw [hH, hK]
    dsimp only
    rw [if_neg (by omega)]
  have hlab : labelCommitments ivk (r1.map (·.1.commitment)) (r2.map (·.1.commitment)) (r3.map (·.1.commitment))
      [none, none, none, none, none, some (s.H.size - 2), none, some (s.K.size - 2), none] = ts.map (·.2.1) := by
    refine label_all ts hcomm ?_ ?_ hcom
    · have := allPolys_labels ipk.index o1 o2 o3 s.H s.K
      rw [hmap, List.map_map] at this
      exact this.symm
    · have := congrArg (List.map Kzg.LabeledPolynomial.degree_bound) hmap
      rw [List.map_map] at this
      rw [hlen]
      exact this
  rw [hmap, hrand] at hopen
  have hbatch := Kzg.batch_check e (h := h) ts hcom (evalMap (querySet vs) ((querySet vs).map val)) (querySet vs)
    (fun l z hl p hp => by
      have hm := Kzg.lookupLast_mem hp
      have hlb : p.label = l := by
        unfold Kzg.lookupLast at hp
        simpa using List.find?_some hp
      rw [evalMap_map _ _ hl, ← hlb, hval p (by rw [hmap]; exact hm)]) hopen
  rw [hproof]
  unfold verify verifyWith
  dsimp only
  rw [hch]
  simp only [bind, Except.bind, hbounds]
  rw [heq]
  dsimp only
  rw [if_pos rfl, hlab, key.hvk, hbatch]
  rfl

/-! ### A proof that is output -/

open Ex97 in
/-- The contribution to the opened sum at the largest degree: none without degree bound. -/
theorem top_none {p : F97[X]} {l : String} {b : Option Nat} (h : p.natDegree ≤ 8) :
    topCoeff 13 13 (⟨l, p, none, b⟩ : Kzg.LabeledPolynomial F97) = 0 := by
  unfold topCoeff
  dsimp only
  rw [coeff_eq_zero_of_natDegree_lt (by omega), add_zero]

open Ex97 in
theorem top_some {p : F97[X]} {l : String} {b : Option Nat} (h : p.natDegree ≤ 2) :
    topCoeff 13 13 (⟨l, p, some 2, b⟩ : Kzg.LabeledPolynomial F97) = p.coeff 2 := by
  unfold topCoeff
  dsimp only
  rw [coeff_eq_zero_of_natDegree_lt (by omega), zero_add, coeff_X_pow_mul']
  simp

theorem mapM_exists {α β ε : Type} {f : α → Except ε β} : ∀ {l : List α}, (∀ a ∈ l, ∃ b, f a = .ok b) →
    ∃ r, l.mapM f = .ok r := by
  intro l
  induction l with
  | nil => intro _; exact ⟨[], rfl⟩
  | cons a l ih =>
    intro h
    obtain ⟨b, hb⟩ := h a List.mem_cons_self
    obtain ⟨r, hr⟩ := ih fun a ha => h a (List.mem_cons_of_mem _ ha)
    refine ⟨b :: r, ?_⟩
    rw [List.mapM_cons, hb, hr]
    rfl

open Ex97 in
/-- The queries of the example, by point. -/
def groups97 : List (F97 × List String) :=
  [(19, ["a_col", "a_row", "a_row_col", "a_val", "b_col", "b_row", "b_row_col", "b_val", "c_col", "c_row",
    "c_row_col", "c_val", "g_2", "h_2"]), (17, ["g_1", "h_1", "mask", "t", "w", "z_a", "z_b"])]

open Ex97 in
/-- The prover outputs a proof, for every trapdoor. -/
theorem prove97 (checked : Bool) (τ g γ h : F97) : ∃ ipk ivk proof,
    index checked mk97 (Kzg.setup 13 τ g γ h) cs97 = .ok (ipk, ivk) ∧
    prove mk97 rng97 ipk cs97 coins97 = .ok proof := by
  obtain ⟨ipk, ivk, hi, hix, hinfo, hvk, hck⟩ := index97 checked τ g γ h
  obtain ⟨H, K, deg, key⟩ := index_ok mk97_ok hi
  have hdeg : deg = 13 := by
    have := key.hck
    rw [hck] at this
    injection this with _ _ this
    exact this.symm
  subst hdeg
  have hH : H4 = H := by
    have := key.hH
    rw [hinfo] at this
    exact Option.some.inj this
  have hK : H4 = K := by
    have := key.hK
    rw [hinfo] at this
    exact Option.some.inj this
  subst hH hK
  have ga := key.ga
  have gb := key.gb
  have gc := key.gc
  rw [hix] at ga gb gc
  obtain ⟨o1, ho1⟩ := first97
  obtain ⟨o2, ho2, t2, g2, d2, e2⟩ := second97 ho1
  obtain ⟨o3, ho3, g3, d3', e3'⟩ := third97 ga gb gc
  have hw2 := ho1.w
  have a4 : o1.za.natDegree = 4 := (plen_eq (ho1.za ▸ za_len : plen o1.za = 4 + 1)).2
  have b4 : o1.zb.natDegree = 4 := (plen_eq (ho1.zb ▸ za_len : plen o1.zb = 4 + 1)).2
  have m1 : o1.mask.natDegree = 1 := by rw [ho1.mask, natDegree_X]
  have ht3 : 1 ≤ o2.t.natDegree ∧ o2.t.natDegree ≤ 3 := by
    rw [t2]
    exact natDegree97 (j := 3) (by decide) (by decide) (by decide +kernel)
  have g12 : o2.g1.natDegree = 2 := le_antisymm d2 (le_natDegree_of_ne_zero (by rw [g2]; decide))
  have g22 : o3.g2.natDegree = 2 := le_antisymm d3' (le_natDegree_of_ne_zero (by rw [g3]; decide))
  obtain ⟨r1, hr1⟩ : ∃ r1, commitAll ipk.committer_key coins97 o1.polys = .ok r1 := by
    rw [hck]
    refine commit97 fun p hp => ?_
    simp only [FirstOracles.polys, List.mem_cons, List.not_mem_nil, or_false] at hp
    rcases hp with rfl | rfl | rfl | rfl <;>
      exact ⟨by dsimp only; omega, by dsimp only; omega, by simp, by simp⟩
  obtain ⟨r2, hr2⟩ : ∃ r2, commitAll ipk.committer_key coins97 (o2.polys H4) = .ok r2 := by
    rw [hck]
    refine commit97 fun p hp => ?_
    simp only [SecondOracles.polys, List.mem_cons, List.not_mem_nil, or_false] at hp
    rcases hp with rfl | rfl | rfl
    · exact ⟨ht3.1, ht3.2.trans (by decide), by simp, by simp⟩
    · refine ⟨by dsimp only; omega, by dsimp only; omega, ?_, ?_⟩
      · intro d hd
        injection hd with hd
        subst hd
        exact ⟨d2, by decide⟩
      · intro b hb
        injection hb with hb
        subst hb
        exact ⟨le_rfl, by decide, fun d _ => by omega⟩
    · exact ⟨by dsimp only; omega, by dsimp only; omega, by simp, by simp⟩
  obtain ⟨r3, hr3⟩ : ∃ r3, commitAll ipk.committer_key coins97 (o3.polys H4) = .ok r3 := by
    rw [hck]
    refine commit97 fun p hp => ?_
    simp only [ThirdOracles.polys, List.mem_cons, List.not_mem_nil, or_false] at hp
    rcases hp with rfl | rfl
    · refine ⟨by dsimp only; omega, by dsimp only; omega, ?_, by simp⟩
      intro d hd
      injection hd with hd
      subst hd
      exact ⟨d3', by decide⟩
    · exact ⟨by dsimp only; omega, by dsimp only; omega, by simp, by simp⟩
  have hv1 : verifierFirst mk97 rng97 ivk [6] (r1.map (·.1.commitment)) = .ok (H4, H4, m97) := by
    have hs5 : sampleOutside H4 (rng97.draw [.seed ivk [6], .comms (r1.map (·.1.commitment))]) 0 = some (5, 1) :=
      sample_zero (by change H4.vanishing 5 ≠ 0; decide +kernel)
    unfold verifierFirst
    rw [hinfo]
    have e1 : domain mk97 4 = .ok H4 := rfl
    have e2 : domain mk97 3 = .ok H4 := rfl
    dsimp only
    rw [if_neg (by simp)]
    simp only [e1, e2, bind, Except.bind, hs5]
    rfl
  have hv2 : verifierSecond rng97 H4 ivk [6] (r1.map (·.1.commitment)) (r2.map (·.1.commitment)) = .ok 17 := by
    have hs17 : sampleOutside H4 (rng97.draw [.seed ivk [6], .comms (r1.map (·.1.commitment)),
        .comms (r2.map (·.1.commitment))]) 0 = some (17, 1) :=
      sample_zero (by change H4.vanishing 17 ≠ 0; decide +kernel)
    unfold verifierSecond
    rw [hs17]
  -- openings
  set vs : VState F97 := ⟨H4, H4, 5, 7, 11, 13, 17, 19⟩ with hvs
  have hfin : ∃ proof, finish rng97 ipk [6] vs (o1.polys ++ o2.polys H4 ++ o3.polys H4) r1 r2 r3 = .ok proof := by
    unfold finish
    dsimp only
    obtain ⟨evals, hev⟩ := mapM_exists (f := evalQuery (ipk.index.polys ++ (o1.polys ++ o2.polys H4 ++ o3.polys H4)))
      (l := querySet vs) (by
        intro q hq
        have hl : q.1 ∈ (allPolys ipk.index o1 o2 o3 H4 H4).map (·.label) := by
          rw [allPolys_labels]
          have : ∀ l ∈ (querySet vs).map (·.1), l ∈ indexLabels ++ proverLabels := by decide +kernel
          exact this _ (List.mem_map_of_mem hq)
        obtain ⟨p, hp, hpl⟩ := List.mem_map.mp hl
        unfold evalQuery
        rw [← hpl]
        have := find_label (allPolys_nodup ipk.index o1 o2 o3 H4 H4) hp
        unfold allPolys at this
        rw [this]
        exact ⟨_, rfl⟩)
    rw [hev]
    obtain ⟨ts0, a1, -, a3, a4⟩ := key.comms
    have hh : ∀ l, (coins97.hide l).1.natDegree ≤ 13 ∧ (coins97.hide l).2.natDegree ≤ 13 := by
      intro l
      constructor <;> · change (X : F97[X]).natDegree ≤ 13; rw [natDegree_X]; omega
    rw [hck] at hr1 hr2 hr3
    obtain ⟨ts1, b1, -, b3, b4⟩ := commitAll_commits hh hr1
    obtain ⟨ts2, d1, -, d3, d4⟩ := commitAll_commits hh hr2
    obtain ⟨ts3, e1, -, e3, e4⟩ := commitAll_commits hh hr3
    set ts := ts0 ++ (ts1 ++ ts2 ++ ts3) with hts
    have hmap : allPolys ipk.index o1 o2 o3 H4 H4 = ts.map (·.1) := by
      unfold allPolys
      rw [hts, List.map_append, List.map_append, List.map_append, a1, b1, d1, e1]
    have hcom : ∀ t ∈ ts, Kzg.Commits τ g γ 13 t.1 t.2.1 t.2.2 := by
      intro t ht
      rw [hts] at ht
      simp only [List.mem_append] at ht
      rcases ht with ht | (ht | ht) | ht
      exacts [a4 t ht, b4 t ht, d4 t ht, e4 t ht]
    have hrand : ipk.index_rands ++ r1.map (·.2) ++ r2.map (·.2) ++ r3.map (·.2) = ts.map (·.2.2) := by
      rw [hts, List.map_append, List.map_append, List.map_append, a3, b3, d3, e3]
      simp only [List.append_assoc]
    have hnd : ((ts.map (·.1)).map (·.label)).Nodup := by
      rw [← hmap]
      exact allPolys_nodup _ _ _ _ _ _
    have hgr : groups97 = Kzg.groups (querySet vs) := by decide +kernel
    have hopen : ∃ op, Kzg.batchOpen ipk.committer_key (ipk.index.polys ++ (o1.polys ++ o2.polys H4 ++ o3.polys H4))
        (querySet vs) 1 (ipk.index_rands ++ r1.map (·.2) ++ r2.map (·.2) ++ r3.map (·.2)) = .ok op := by
      unfold Kzg.batchOpen
      rw [show ipk.index.polys ++ (o1.polys ++ o2.polys H4 ++ o3.polys H4) = ts.map (·.1) from hmap, hrand,
        List.zip_map', ← hgr, hck]
      refine mapM_exists fun grp hgrp => ?_
      have hall : ∀ p ∈ allPolys ipk.index o1 o2 o3 H4 H4, p ∈ ts.map (·.1) := fun p hp => hmap ▸ hp
      have hixd := ix97_degrees
      rw [← hix] at hixd
      simp only [groups97, List.mem_cons, List.not_mem_nil, or_false] at hgrp
      rcases hgrp with rfl | rfl
      · have hx : ∀ l q, ⟨l, q, none, none⟩ ∈ ipk.index.polys → q.natDegree ≤ 8 := fun l q hq =>
          (hixd _ hq).1.2.trans (by decide)
        refine openGroup_exists (n := 13) (by decide) hcom hnd (ps := [⟨"a_col", ipk.index.a_star.col, none, none⟩,
            ⟨"a_row", ipk.index.a_star.row, none, none⟩, ⟨"a_row_col", ipk.index.a_star.row_col, none, none⟩,
            ⟨"a_val", ipk.index.a_star.val, none, none⟩, ⟨"b_col", ipk.index.b_star.col, none, none⟩,
            ⟨"b_row", ipk.index.b_star.row, none, none⟩, ⟨"b_row_col", ipk.index.b_star.row_col, none, none⟩,
            ⟨"b_val", ipk.index.b_star.val, none, none⟩, ⟨"c_col", ipk.index.c_star.col, none, none⟩,
            ⟨"c_row", ipk.index.c_star.row, none, none⟩, ⟨"c_row_col", ipk.index.c_star.row_col, none, none⟩,
            ⟨"c_val", ipk.index.c_star.val, none, none⟩, ⟨"g_2", o3.g2, some 2, none⟩,
            ⟨"h_2", o3.h2, none, none⟩]) ?_ ?_
        · intro p hp
          refine hall p ?_
          simp only [List.mem_cons, List.not_mem_nil, or_false] at hp
          rcases hp with rfl | rfl | rfl | rfl | rfl | rfl | rfl | rfl | rfl | rfl | rfl | rfl | rfl | rfl <;>
            simp [allPolys, IndexData.polys, ThirdOracles.polys, H4]
        · simp only [List.map_cons, List.map_nil, List.sum_cons, List.sum_nil]
          rw [top_some d3', g3, top_none (by omega : o3.h2.natDegree ≤ 8)]
          rw [top_none (hx "a_col" _ (by simp [IndexData.polys])),
            top_none (hx "a_row" _ (by simp [IndexData.polys])),
            top_none (hx "a_row_col" _ (by simp [IndexData.polys])),
            top_none (hx "a_val" _ (by simp [IndexData.polys])),
            top_none (hx "b_col" _ (by simp [IndexData.polys])),
            top_none (hx "b_row" _ (by simp [IndexData.polys])),
            top_none (hx "b_row_col" _ (by simp [IndexData.polys])),
            top_none (hx "b_val" _ (by simp [IndexData.polys])),
            top_none (hx "c_col" _ (by simp [IndexData.polys])),
            top_none (hx "c_row" _ (by simp [IndexData.polys])),
            top_none (hx "c_row_col" _ (by simp [IndexData.polys])),
            top_none (hx "c_val" _ (by simp [IndexData.polys]))]
          decide
      · refine openGroup_exists (n := 13) (by decide) hcom hnd (ps := [⟨"g_1", o2.g1, some 2, some 1⟩,
            ⟨"h_1", o2.h1, none, none⟩, ⟨"mask", o1.mask, none, none⟩, ⟨"t", o2.t, none, none⟩,
            ⟨"w", o1.w, none, some 1⟩, ⟨"z_a", o1.za, none, some 1⟩, ⟨"z_b", o1.zb, none, some 1⟩]) ?_ ?_
        · intro p hp
          refine hall p ?_
          simp only [List.mem_cons, List.not_mem_nil, or_false] at hp
          rcases hp with rfl | rfl | rfl | rfl | rfl | rfl | rfl <;>
            simp [allPolys, FirstOracles.polys, SecondOracles.polys, H4]
        · simp only [List.map_cons, List.map_nil, List.sum_cons, List.sum_nil]
          rw [top_some d2, g2, top_none (by omega : o2.h1.natDegree ≤ 8), top_none (by omega : o1.mask.natDegree ≤ 8),
            top_none (by omega : o2.t.natDegree ≤ 8), top_none (by omega : o1.w.natDegree ≤ 8),
            top_none (by omega : o1.za.natDegree ≤ 8), top_none (by omega : o1.zb.natDegree ≤ 8)]
          decide
    obtain ⟨op, hop⟩ := hopen
    simp only [bind, Except.bind]
    rw [show rng97.opening _ = 1 from rfl, hop]
    exact ⟨_, rfl⟩
  obtain ⟨proof, hproof⟩ := hfin
  refine ⟨ipk, ivk, proof, hi, ?_⟩
  unfold prove
  rw [hix, init97]
  simp only [bind, Except.bind]
  rw [ho1.run]
  dsimp only
  rw [hr1, hvk]
  dsimp only
  rw [show s97.inputs.tail = [6] from rfl, hv1]
  dsimp only
  rw [ho2]
  dsimp only
  rw [show s97.H = H4 from rfl, hr2]
  dsimp only
  rw [hv2]
  dsimp only
  rw [ho3]
  dsimp only
  rw [show s97.K = H4 from rfl, hr3]
  exact hproof

open Ex97 in
/-- So everything that `C83_partial` assumes can be met, for every trapdoor: the proof is accepted. -/
example (checked : Bool) (τ g γ h : F97) (e : F97 →ₗ[F97] F97 →ₗ[F97] F97) : ∃ ipk ivk proof,
    index checked mk97 (Kzg.setup 13 τ g γ h) cs97 = .ok (ipk, ivk) ∧
    prove mk97 rng97 ipk cs97 coins97 = .ok proof ∧ verify mk97 rng97 e ivk proof [6] = .ok true := by
  obtain ⟨ipk, ivk, proof, hi, hp⟩ := prove97 checked τ g γ h
  refine ⟨ipk, ivk, proof, hi, hp, C83_partial mk97_ok rng97 e hi rfl rfl cs97_valid rfl ⟨1, rfl⟩ ?_ ?_ ?_ hp⟩
  · change (1 : F97) ≠ 0
    decide
  · change (1 : F97) ≠ 0
    decide
  · intro l
    constructor <;> · change (X : F97[X]).natDegree ≤ 1; rw [natDegree_X]

/-! ### Circuits without proofs -/

theorem divX_small {p : F[X]} {n : Nat} (h : p.degree < (n : WithBot ℕ)) (hn : n ≤ 2) : p.divX.natDegree = 0 := by
  have := natDegree_divX_eq_natDegree_tsub_one (p := p)
  have h2 : p.natDegree < 2 := by
    by_cases h0 : p = 0
    · rw [h0, natDegree_zero]; omega
    · have := (natDegree_lt_iff_degree_lt h0).mpr h
      omega
  omega

/-- No proof is ever output for a circuit whose matrices have at most two non-zero entries each, whatever the
assignment, the coins and the random oracle are: then `g_2` is constant and the commitment to it fails. -/
theorem C83_few_entries {checked : Bool} {mk : Nat → Option (Domain F)} (hmk : MkOk mk) (rng : FsRng F G1 G2)
    {N : Nat} {τ : F} {g γ : G1} {h : G2} {cs0 : CS F} {ipk : IndexProverKey F G1 G2}
    {ivk : IndexVerifierKey F G1 G2} (hi : index checked mk (Kzg.setup N τ g γ h) cs0 = .ok (ipk, ivk))
    (hn : ivk.info.num_non_zeros ≤ 2) (cs : CS F) (coins : Coins F)
    (hhide : ∀ l, (coins.hide l).1.natDegree ≤ 1 ∧ (coins.hide l).2.natDegree ≤ 1) (proof : Proof F G1) :
    prove mk rng ipk cs coins ≠ .ok proof := by
  intro hp
  obtain ⟨H, K, deg, key⟩ := index_ok hmk hi
  have hdeg4 : 1 ≤ deg := by have := key.hdeg; omega
  unfold prove at hp
  obtain ⟨s, hs, hp⟩ := Kzg.bind_ok hp
  dsimp only at hp
  obtain ⟨o1, ho1, hp⟩ := Kzg.bind_ok hp
  obtain ⟨r1, hr1, hp⟩ := Kzg.bind_ok hp
  obtain ⟨v, hv1, hp⟩ := Kzg.bind_ok hp
  obtain ⟨o2, ho2, hp⟩ := Kzg.bind_ok hp
  obtain ⟨r2, hr2, hp⟩ := Kzg.bind_ok hp
  obtain ⟨β, hβ, hp⟩ := Kzg.bind_ok hp
  obtain ⟨o3, ho3, hp⟩ := Kzg.bind_ok hp
  obtain ⟨r3, hr3, hp⟩ := Kzg.bind_ok hp
  obtain ⟨-, -, -, -, -, -, -, hK⟩ := init_ok hs
  rw [key.hinfo] at hK
  rw [key.hck] at hr3
  have hKs : s.K.size ≤ 2 := hmk.least hK 1 (by simpa using hn)
  have h1 := commitAll_deg (p := ⟨"g_2", o3.g2, some (s.K.size - 2), none⟩) ((hhide _).1.trans hdeg4)
    (by simp [ThirdOracles.polys]) hr3
  unfold thirdRound at ho3
  dsimp only at ho3 h1
  obtain ⟨B, -, ho3⟩ := Kzg.bind_ok ho3
  split at ho3
  · cases ho3
  · injection ho3 with ho3
    rw [← ho3] at h1
    dsimp only at h1
    rw [divX_small (interpolate_degree _ _) hKs] at h1
    omega

/-- No proof is ever output for a circuit with at most two variables (with the one): then `g_1` is constant. -/
theorem C83_small {checked : Bool} {mk : Nat → Option (Domain F)} (hmk : MkOk mk) (rng : FsRng F G1 G2)
    {N : Nat} {τ : F} {g γ : G1} {h : G2} {cs0 : CS F} {ipk : IndexProverKey F G1 G2}
    {ivk : IndexVerifierKey F G1 G2} (hi : index checked mk (Kzg.setup N τ g γ h) cs0 = .ok (ipk, ivk))
    (hn : ivk.info.num_constraints ≤ 2) (cs : CS F) (coins : Coins F)
    (hhide : ∀ l, (coins.hide l).1.natDegree ≤ 1 ∧ (coins.hide l).2.natDegree ≤ 1) (proof : Proof F G1) :
    prove mk rng ipk cs coins ≠ .ok proof := by
  intro hp
  obtain ⟨H, K, deg, key⟩ := index_ok hmk hi
  have hdeg4 : 1 ≤ deg := by have := key.hdeg; omega
  unfold prove at hp
  obtain ⟨s, hs, hp⟩ := Kzg.bind_ok hp
  dsimp only at hp
  obtain ⟨o1, ho1, hp⟩ := Kzg.bind_ok hp
  obtain ⟨r1, hr1, hp⟩ := Kzg.bind_ok hp
  obtain ⟨v, hv1, hp⟩ := Kzg.bind_ok hp
  obtain ⟨o2, ho2, hp⟩ := Kzg.bind_ok hp
  obtain ⟨r2, hr2, hp⟩ := Kzg.bind_ok hp
  obtain ⟨-, -, -, -, -, -, hH, -⟩ := init_ok hs
  have vH := hmk.valid hH
  rw [key.hinfo] at hH
  rw [key.hck] at hr2
  have hHs : s.H.size ≤ 2 := hmk.least hH 1 (by simpa using hn)
  have h1 := commitAll_deg (p := ⟨"g_1", o2.g1, some (s.H.size - 2), some 1⟩) ((hhide _).1.trans hdeg4)
    (by simp [SecondOracles.polys]) hr2
  unfold secondRound at ho2
  dsimp only at ho2 h1
  obtain ⟨D, -, ho2⟩ := Kzg.bind_ok ho2
  obtain ⟨tv, -, ho2⟩ := Kzg.bind_ok ho2
  obtain ⟨q, -, ho2⟩ := Kzg.bind_ok ho2
  split at ho2
  · cases ho2
  · injection ho2 with ho2
    rw [← ho2] at h1
    dsimp only at h1
    rw [divX_small (mod_degree vH q) hHs] at h1
    omega

open Ex97 in
/-- `(1 + x)·(1 + x) = 1 + x` and `1·1 = 1`, solved by `x = 0`. -/
def small97 : CS F97 :=
  ⟨true, [1], [0], [⟨[(.input 0, 1), (.aux 0, 1)], [(.input 0, 1), (.aux 0, 1)], [(.input 0, 1), (.aux 0, 1)]⟩,
    ⟨[(.input 0, 1)], [(.input 0, 1)], [(.input 0, 1)]⟩]⟩

open Ex97 in
theorem small97_compose : compose ⟨1, 1, 5⟩ X2 H4 ([[(1, 0), (1, 1)], [(1, 0)]] : Matrix F97)
    = .ok (matrixPolys H4 [(1, 1, 49), (96, 1, 48), (1, 96, 49), (1, 1, 0)]) := by
  have i0 : (diagonal X2 0)⁻¹ = 49 := inv_eq_of_mul_eq_one_right (by decide)
  have i1 : (diagonal X2 1)⁻¹ = 48 := inv_eq_of_mul_eq_one_right (by decide)
  have c00 : composeEntry X2 ⟨1, 1, 5⟩ 0 ((1 : F97), 0) = .ok (1, 1, 1 * (diagonal X2 0)⁻¹) := by rfl
  have c01 : composeEntry X2 ⟨1, 1, 5⟩ 0 ((1 : F97), 1) = .ok (96, 1, 1 * (diagonal X2 1)⁻¹) := by rfl
  have c10 : composeEntry X2 ⟨1, 1, 5⟩ 1 ((1 : F97), 0) = .ok (1, 96, 1 * (diagonal X2 0)⁻¹) := by rfl
  rw [i0, one_mul] at c00 c10
  rw [i1, one_mul] at c01
  unfold compose
  simp only [composeEntries, List.mapM_cons, List.mapM_nil, c00, c01, c10, bind, Except.bind, pure, Except.pure]
  rfl

open Ex97 in
/-- The circuit is indexed without complaint. -/
theorem small97_index (checked : Bool) (τ g γ h : F97) : ∃ ipk ivk,
    index checked mk97 (Kzg.setup 9 τ g γ h) small97 = .ok (ipk, ivk) ∧ ivk.info = ⟨2, 2, 3⟩ := by
  set m := matrixPolys H4 ([(1, 1, 49), (96, 1, 48), (1, 96, 49), (1, 1, 0)] : List (F97 × F97 × F97)) with hm
  have ha : ahpIndex checked mk97 small97 = .ok ⟨⟨2, 2, 3⟩, [[(1, 0), (1, 1)], [(1, 0)]], [[(1, 0), (1, 1)], [(1, 0)]],
      [[(1, 0), (1, 1)], [(1, 0)]], m, m, m⟩ := by
    have hp : (Ics.of small97).makeSquare.process checked
        = .ok ([[(1, 0), (1, 1)], [(1, 0)]], [[(1, 0), (1, 1)], [(1, 0)]], [[(1, 0), (1, 1)], [(1, 0)]]) := by
      cases checked <;> rfl
    unfold ahpIndex
    dsimp only
    rw [hp]
    simp only [liftSyn, bind, Except.bind]
    have e1 : domain mk97 (Ics.of small97).makeSquare.numInputs = .ok ⟨1, 1, 5⟩ := by rfl
    have e2 : domain mk97 ((Ics.of small97).makeSquare.numInputs + (Ics.of small97).makeSquare.numWitness)
        = .ok X2 := by rfl
    have e3 : domain mk97 (numNonZeros (([[(1, 0), (1, 1)], [(1, 0)]], [[(1, 0), (1, 1)], [(1, 0)]],
        [[(1, 0), (1, 1)], [(1, 0)]]) : Matrix F97 × Matrix F97 × Matrix F97)) = .ok H4 := by rfl
    have e4 : domain mk97 (3 * H4.size - 3) = .ok ⟨16, 8, 5⟩ := by rfl
    rw [e1, e2, e3]
    dsimp only
    rw [if_neg (by decide), e4]
    dsimp only
    rw [small97_compose]
    rfl
  have hdeg : ∀ v ∈ [m.row, m.col, m.val, m.row_col], 1 ≤ v.natDegree ∧ v.natDegree ≤ 3 := by
    intro v hv
    simp only [hm, matrixPolys, List.map_cons, List.map_nil, List.mem_cons, List.not_mem_nil, or_false] at hv
    rcases hv with rfl | rfl | rfl | rfl <;>
      exact natDegree97 (j := 1) (by decide) (by decide) (by decide +kernel)
  have ht := Kzg.setup_trim_spec (N := 9) (s := 9) le_rfl τ g γ h
  set d : IndexData F97 := ⟨⟨2, 2, 3⟩, [[(1, 0), (1, 1)], [(1, 0)]], [[(1, 0), (1, 1)], [(1, 0)]],
    [[(1, 0), (1, 1)], [(1, 0)]], m, m, m⟩ with hd
  obtain ⟨crs, hc⟩ := Kzg.C38_list_success ht (d.polys.map fun p => (p, 0, 0)) (by
    intro p hp
    obtain ⟨q, hq, rfl⟩ := List.mem_map.mp hp
    have : q.polynomial ∈ [m.row, m.col, m.val, m.row_col] ∧ q.degree_bound = none ∧ q.hiding_bound = none := by
      simp only [IndexData.polys, hd, List.mem_cons, List.not_mem_nil, or_false] at hq
      rcases hq with rfl | rfl | rfl | rfl | rfl | rfl | rfl | rfl | rfl | rfl | rfl | rfl <;> simp
    obtain ⟨h1, h3, h4⟩ := this
    obtain ⟨h1, h2⟩ := hdeg _ h1
    refine ⟨h1, h2.trans (by decide), ?_, ?_⟩
    · intro d hd; dsimp only at hd; rw [h3] at hd; cases hd
    · intro d hd; dsimp only at hd; rw [h4] at hd; cases hd)
  have hdg : maxDegree mk97 d.info = .ok 9 := by rfl
  have hl : ¬ (Kzg.setup 9 τ g γ h).powers_of_g.length - 1 < 9 := by simp [Kzg.setup]
  unfold index
  rw [ha]
  simp only [bind, Except.bind, hdg, if_neg hl, ht, liftPc, hc]
  exact ⟨_, _, rfl, rfl⟩

open Ex97 in
example (checked : Bool) (τ g γ h : F97) (rng : FsRng F97 F97 F97) (coins : Coins F97)
    (hc : ∀ l, (coins.hide l).1.natDegree ≤ 1 ∧ (coins.hide l).2.natDegree ≤ 1) : ∃ ipk ivk,
    index checked mk97 (Kzg.setup 9 τ g γ h) small97 = .ok (ipk, ivk) ∧
    ∀ proof, prove mk97 rng ipk small97 coins ≠ .ok proof := by
  obtain ⟨ipk, ivk, hi, hinfo⟩ := small97_index checked τ g γ h
  exact ⟨ipk, ivk, hi, C83_small mk97_ok rng hi (by rw [hinfo]) _ coins hc⟩

/-- No proof is ever output if the private variables do not fit into the domain beside the domain of the
inputs. -/
theorem C83_no_room {mk : Nat → Option (Domain F)} (rng : FsRng F G1 G2) (ipk : IndexProverKey F G1 G2)
    (cs : CS F) (coins : Coins F) {D H : Domain F} (hD : mk cs.inputs.length = some D)
    (hH : mk ipk.index.info.num_constraints = some H)
    (hfit : H.size < D.size + (ipk.index.info.num_constraints - cs.inputs.length)) (proof : Proof F G1) :
    prove mk rng ipk cs coins ≠ .ok proof := by
  intro hp
  unfold prove at hp
  obtain ⟨s, hs, hp⟩ := Kzg.bind_ok hp
  dsimp only at hp
  obtain ⟨o1, ho1, -⟩ := Kzg.bind_ok hp
  obtain ⟨s1, -, s3, -, -, hD', hH', -⟩ := init_ok hs
  rw [s1, hD] at hD'
  rw [hH] at hH'
  have e1 := Option.some.inj hD'
  have e2 := Option.some.inj hH'
  have h0 := zPoly_panic (H := s.H) (D := s.X) s.inputs s.witness coins.w (by
    rw [← e1, ← e2]; rw [s1] at s3; omega)
  unfold firstRound at ho1
  obtain ⟨w, hw, -⟩ := Kzg.bind_ok ho1
  unfold zPoly at h0
  rw [hw] at h0
  cases h0

open Ex97 in
/-- Three inputs and one private variable: both domains have four elements. -/
example (rng : FsRng F97 F97 F97) (ipk : IndexProverKey F97 F97 F97) (hi : ipk.index.info = ⟨4, 4, 4⟩)
    (coins : Coins F97) (proof : Proof F97 F97) (cons : List (R1C F97)) :
    prove mk97 rng ipk ⟨true, [1, 5, 6], [7], cons⟩ coins ≠ .ok proof :=
  C83_no_room rng ipk _ coins (D := H4) (H := H4) rfl (by rw [hi]; rfl)
    (by rw [hi]; change 4 < 4 + (4 - 3); decide) proof

open Ex17

/-- The constraints of `badCircuit`, with the public input 2. -/
def goodAssignment : CS F17 := { badCircuit with inputs := [1, 2] }

theorem goodAssignment_valid : goodAssignment.Valid := by
  intro w hw c hc
  have h1 : w (.input 1) = 2 := hw.1 1 2 rfl
  simp only [goodAssignment, badCircuit, List.mem_cons, List.not_mem_nil, or_false] at hc
  rcases hc with rfl | rfl
  · simp [R1C.Holds, LC.eval]
  · simp [R1C.Holds, LC.eval, h1]

/-- The violation: `0·w = 0` and `x·x = 2·x` have a solution for the public input 2, the index exists, and
the prover fails whatever the trapdoor, the coins and the random oracle are. -/
theorem C83_violated (checked : Bool) (τ g γ h : F17) (rng : FsRng F17 F17 F17) : ∃ ipk ivk,
    index checked mkAll (Kzg.setup 13 τ g γ h) badCircuit = .ok (ipk, ivk) ∧ goodAssignment.Valid ∧
    ∀ (coins : Coins F17) (proof : Proof F17 F17),
      (∀ l, (coins.hide l).1.natDegree ≤ 1 ∧ (coins.hide l).2.natDegree ≤ 1) →
      prove mkAll rng ipk goodAssignment coins ≠ .ok proof := by
  obtain ⟨ipk, ivk, hi, hinfo⟩ := badCircuit_index checked τ g γ h
  exact ⟨ipk, ivk, hi, goodAssignment_valid, fun coins proof hc =>
    C83_few_entries mkAll_ok rng hi (by rw [hinfo]) _ coins hc proof⟩

/-- So the full statement is false. -/
theorem C83_statement_false (rng : FsRng F17 F17 F17) (e : F17 →ₗ[F17] F17 →ₗ[F17] F17) :
    ¬ C83_statement F17 F17 F17 F17 mkAll rng e := by
  intro hst
  obtain ⟨ipk, ivk, hi, hv, hun⟩ := C83_violated false 3 1 2 1 rng
  obtain ⟨proof, hp, -⟩ := hst false 13 3 1 2 1 badCircuit goodAssignment ipk ivk [2]
    ⟨1, 1, 1, X, fun _ => (0, 0)⟩ hi rfl rfl rfl hv rfl (by simp)
  exact hun _ proof (by simp) hp

end Zkp.Marlin
