/- C35: Marlin's verifier accepts forged proofs for every circuit and every public input. -/
import Verif.Proof.MarlinSound
import Verif.Proof.F17Family
import Verif.Props.Kzg

set_option linter.unusedSectionVars false
set_option linter.unusedSimpArgs false

namespace Zkp.Marlin

open Polynomial

variable {F : Type} [Field F] [DecidableEq F]
variable {G1 G2 GT : Type} [AddCommGroup G1] [AddCommGroup G2] [AddCommGroup GT]
  [Module F G1] [Module F G2] [Module F GT]

/-- The full statement: whatever is accepted for an index and a public input, the indexed circuit has a
satisfying assignment with these inputs. -/
def C35_statement (F G1 G2 GT : Type) [Field F] [DecidableEq F] [AddCommGroup G1] [AddCommGroup G2]
    [AddCommGroup GT] [Module F G1] [Module F G2] [Module F GT] [DecidableEq GT]
    (mk : Nat → Option (Domain F)) (rng : FsRng F G1 G2) (e : G1 →ₗ[F] G2 →ₗ[F] GT) : Prop :=
  ∀ (N : Nat) (τ : F) (g γ : G1) (h : G2) (cs : CS F) (ipk : IndexProverKey F G1 G2)
    (ivk : IndexVerifierKey F G1 G2) (proof : Proof F G1) (pi : List F),
    index false mk (Kzg.setup N τ g γ h) cs = .ok (ipk, ivk) → cs.inputs.length = pi.length + 1 →
    verify mk rng e ivk proof pi = .ok true →
    ∃ z : Nat → F, (∀ i ≤ pi.length, z i = (1 :: pi).getD i 0) ∧ CS.Sat (assign cs.inputs.length z) cs

set_option maxHeartbeats 4000000 in
/-- The forged proof is accepted, whatever the circuit, the public input, the trapdoor and the random
oracle.  `forge` uses public data only: it gets neither the trapdoor nor a witness.  (Assumed besides the
external domain constructor: the sampling loops of the verifier end, the domains have at least two elements,
as needed by the honest prover too, and there is a domain for the public input.) -/
theorem C35_forgery [DecidableEq GT] {checked : Bool} {mk : Nat → Option (Domain F)} (hmk : MkOk mk)
    (rng : FsRng F G1 G2) (e : G1 →ₗ[F] G2 →ₗ[F] GT) {N : Nat} {τ : F} {g γ : G1} {h : G2} {cs : CS F}
    {ipk : IndexProverKey F G1 G2} {ivk : IndexVerifierKey F G1 G2}
    (hi : index checked mk (Kzg.setup N τ g γ h) cs = .ok (ipk, ivk)) (pi : List F)
    {s0 : VState F} (hs : challenges mk rng ivk pi [] [] [] = .ok s0)
    {bounds : List (Option Nat)} (hb : degreeBounds mk ivk.info = .ok bounds)
    {D : Domain F} (hD : mk (1 :: pi).length = some D) :
    verify mk rng e ivk (forge mk rng ipk pi) pi = .ok true := by
  obtain ⟨H, K, deg, key⟩ := index_ok hmk hi
  obtain ⟨hH, hK, hα, hβ, hs'⟩ := challenges_ok hs
  have hH' := key.hH
  have hK' := key.hK
  rw [hH] at hH'
  rw [hK] at hK'
  injection hH' with hH'
  injection hK' with hK'
  subst hH' hK'
  have vH := hmk.valid hH
  have vK := hmk.valid hK
  have hbd : bounds = [none, none, none, none, none, some (s0.H.size - 2), none, some (s0.K.size - 2), none]
      ∧ 2 ≤ s0.H.size ∧ 2 ≤ s0.K.size := by
    unfold degreeBounds at hb
    rw [hH, hK] at hb
    dsimp only at hb
    split at hb
    · cases hb
    · injection hb with hb
      exact ⟨hb.symm, by omega, by omega⟩
  obtain ⟨hbd, hH2, hK2⟩ := hbd
  set xβ := (interpolate D (1 :: pi)).eval s0.beta with hxβ
  set ps := forgePolys s0 ipk.index xβ with hps
  set c3 := ps.map (rawCommit ipk.committer_key) with hc3
  have hs3 := hs' c3
  set γ' := rng.draw [.seed ivk pi, .comms [], .comms [], .comms c3] 0 with hγ'
  set s : VState F := { s0 with gamma := γ' } with hsdef
  set val : String × F → F := fun q =>
      match Kzg.lookupLast Kzg.LabeledPolynomial.label (ipk.index.polys ++ ps) q.1 with
      | some p => p.polynomial.eval q.2
      | none => 0 with hval
  set evals := (querySet s).map val with hevals
  set ξ := rng.opening [.seed ivk pi, .comms [], .comms [], .comms c3, .evals evals] with hξ
  have hforge : forge mk rng ipk pi = ⟨[[], [], c3], evals, Kzg.rawBatch ipk.committer_key
        ((ipk.index.polys.zip ipk.index_rands) ++ ps.map fun p => (p, ⟨0, some 0⟩)) (querySet s) ξ⟩ := by
    unfold forge
    rw [key.hivk, hs, hD]
    rfl
  -- the evaluations
  have hget : ∀ l z, (l, z) ∈ querySet s → getEval (evalMap (querySet s) evals) l z = .ok (val (l, z)) :=
    fun l z hl => getEval_map _ _ hl
  have hgood : ∀ m : MatrixPolys F, Good s0.H s0.K m → Good s.H s.K m := fun m hm => hm
  have hf : ∀ a b c : MatrixPolys F, sumPoly s a b c = sumPoly s0 a b c := fun _ _ _ => rfl
  have hn : ∀ a b c : MatrixPolys F, numPoly s a b c = numPoly s0 a b c := fun _ _ _ => rfl
  have hp : ∀ a b c : MatrixPolys F, prodPoly s a b c = prodPoly s0 a b c := fun _ _ _ => rfl
  set f := sumPoly s0 ipk.index.a_star ipk.index.b_star ipk.index.c_star with hfd
  have heq : equalityCheck mk s pi (evalMap (querySet s) evals) = .ok true := by
    have d1 : domain mk (1 :: pi).length = .ok D := by unfold domain; rw [hD]
    unfold equalityCheck
    rw [d1, hget "mask" s.beta (by simp [querySet]), hget "z_a" s.beta (by simp [querySet]),
      hget "z_b" s.beta (by simp [querySet]), hget "w" s.beta (by simp [querySet]),
      hget "t" s.beta (by simp [querySet]), hget "h_1" s.beta (by simp [querySet]),
      hget "g_1" s.beta (by simp [querySet])]
    simp only [bind, Except.bind]
    have v1 : val ("mask", s.beta) = s0.K.size * f.coeff 0 * xβ := by
      simp [hval, Kzg.lookupLast, hps, forgePolys, hfd]
    have v2 : val ("z_a", s.beta) = 0 := by simp [hval, Kzg.lookupLast, hps, forgePolys]
    have v3 : val ("z_b", s.beta) = 0 := by simp [hval, Kzg.lookupLast, hps, forgePolys]
    have v4 : val ("w", s.beta) = 0 := by simp [hval, Kzg.lookupLast, hps, forgePolys]
    have v5 : val ("t", s.beta) = s0.K.size * f.coeff 0 := by
      simp [hval, Kzg.lookupLast, hps, forgePolys, hfd]
    have v6 : val ("h_1", s.beta) = 0 := by simp [hval, Kzg.lookupLast, hps, forgePolys]
    have v7 : val ("g_1", s.beta) = 0 := by simp [hval, Kzg.lookupLast, hps, forgePolys]
    rw [v1, v2, v3, v4, v5, v6, v7]
    have ho : outerCheck s (D.vanishing s.beta) ((interpolate D (1 :: pi)).eval s.beta)
        (s0.K.size * f.coeff 0 * xβ) 0 0 0 (s0.K.size * f.coeff 0) 0 0 = true := by
      unfold outerCheck
      rw [decide_eq_true_iff]
      change _ + _ - _ * (_ + xβ) = _
      ring
    rw [if_pos ho]
    unfold innerRound
    rw [hget "h_2" s.gamma (by simp [querySet]), hget "g_2" s.gamma (by simp [querySet]),
      hget "a_val" s.gamma (by simp [querySet]), hget "a_row" s.gamma (by simp [querySet]),
      hget "a_col" s.gamma (by simp [querySet]), hget "a_row_col" s.gamma (by simp [querySet]),
      hget "b_val" s.gamma (by simp [querySet]), hget "b_row" s.gamma (by simp [querySet]),
      hget "b_col" s.gamma (by simp [querySet]), hget "b_row_col" s.gamma (by simp [querySet]),
      hget "c_val" s.gamma (by simp [querySet]), hget "c_row" s.gamma (by simp [querySet]),
      hget "c_col" s.gamma (by simp [querySet]), hget "c_row_col" s.gamma (by simp [querySet])]
    simp only [bind, Except.bind]
    congr 1
    have := inner_forged (s := s) vH vK hα hβ (hgood _ key.ga) (hgood _ key.gb) (hgood _ key.gc)
    rw [← this]
    congr 1 <;> simp [hval, Kzg.lookupLast, hps, forgePolys, IndexData.polys, hf, hn, hp, hfd]
  -- the commitments
  obtain ⟨ts, e1, e2, e3, hts⟩ := key.comms
  set us : List (Kzg.LabeledPolynomial F × Kzg.LabeledCommitment G1 × Kzg.Randomness F) :=
    ps.map fun p => (p, ⟨p.label, rawCommit ipk.committer_key p, p.degree_bound⟩, ⟨0, some 0⟩) with hus
  have hlab : labelCommitments ivk [] [] c3 bounds = (ts ++ us).map (·.2.1) := by
    have hlen : ts.length = 12 := by
      have := congrArg List.length e1
      simpa [IndexData.polys] using this.symm
    match ts, hlen with
    | [t1, t2, t3, t4, t5, t6, t7, t8, t9, t10, t11, t12], _ =>
      unfold labelCommitments
      rw [e2, hbd, hc3, hus, hps]
      simp only [IndexData.polys, List.map_cons, List.map_nil] at e1
      simp only [List.cons.injEq, and_true] at e1
      obtain ⟨q1, q2, q3, q4, q5, q6, q7, q8, q9, q10, q11, q12⟩ := e1
      have key1 : ∀ t ∈ [t1, t2, t3, t4, t5, t6, t7, t8, t9, t10, t11, t12], ∀ p,
          p = t.1 → p.degree_bound = none → t.2.1 = ⟨p.label, t.2.1.commitment, none⟩ := by
        intro t ht p hp hn
        have h1 := (hts t ht).label
        have h2 := (hts t ht).bound
        rw [← hp] at h1 h2
        rw [hn] at h2
        cases hh : t.2.1 with
        | mk l cm b => rw [hh] at h1 h2; dsimp only at h1 h2; rw [h1, h2]
      have k1 := key1 t1 (by simp) _ q1 rfl
      have k2 := key1 t2 (by simp) _ q2 rfl
      have k3 := key1 t3 (by simp) _ q3 rfl
      have k4 := key1 t4 (by simp) _ q4 rfl
      have k5 := key1 t5 (by simp) _ q5 rfl
      have k6 := key1 t6 (by simp) _ q6 rfl
      have k7 := key1 t7 (by simp) _ q7 rfl
      have k8 := key1 t8 (by simp) _ q8 rfl
      have k9 := key1 t9 (by simp) _ q9 rfl
      have k10 := key1 t10 (by simp) _ q10 rfl
      have k11 := key1 t11 (by simp) _ q11 rfl
      have k12 := key1 t12 (by simp) _ q12 rfl
      simp only [forgePolys, indexLabels, proverLabels, List.map_cons, List.map_nil, List.length_cons,
        List.length_nil, List.cons_append, List.nil_append, List.append_nil, List.zip_cons_cons,
        List.replicate, List.zip_nil_left, List.zip_nil_right]
      rw [k1, k2, k3, k4, k5, k6, k7, k8, k9, k10, k11, k12]
  have hall : ∀ t ∈ ts ++ us, Kzg.Commits τ g γ deg t.1 t.2.1 t.2.2 := by
    intro t ht
    rcases List.mem_append.mp ht with ht | ht
    · exact hts t ht
    · rw [hus] at ht
      obtain ⟨p, hp, rfl⟩ := List.mem_map.mp ht
      dsimp only
      rw [key.hck]
      have hdeg := key.hdeg
      have k2 := h2_natDegree (s := s0) vK key.ga key.gb key.gc
      have k3 := g2_natDegree (s := s0) (a := ipk.index.a_star) (b := ipk.index.b_star) (c := ipk.index.c_star)
      rw [hps] at hp
      simp only [forgePolys, List.mem_cons, List.not_mem_nil, or_false] at hp
      rcases hp with rfl | rfl | rfl | rfl | rfl | rfl | rfl | rfl | rfl <;>
        refine rawCommit_commits _ ?_ ?_ <;> dsimp only
      all_goals first
        | (intro d hd; cases hd; done)
        | (intro d hd; injection hd with hd; subst hd; refine ⟨by omega, ?_⟩; simp; done)
        | (intro d hd; injection hd with hd; subst hd; exact ⟨by omega, k3⟩)
        | (simp; done)
        | omega
        | (rw [natDegree_C]; omega)
  -- the verifier
  rw [hforge]
  unfold verify verifyWith
  dsimp only
  rw [hs3]
  simp only [bind, Except.bind, hb]
  rw [heq]
  dsimp only
  rw [if_pos rfl, hlab, key.hvk, key.hck]
  have hzip : (ipk.index.polys.zip ipk.index_rands) ++ ps.map (fun p => (p, (⟨0, some 0⟩ : Kzg.Randomness F)))
      = (ts ++ us).map fun t => (t.1, t.2.2) := by
    rw [e1, e3, List.zip_map', List.map_append, hus, List.map_map]
    rfl
  have hall1 : (ts ++ us).map (·.1) = ipk.index.polys ++ ps := by
    rw [e1, List.map_append, hus, List.map_map]
    congr 1
  rw [hzip]
  have hsome : ∀ l z, (l, z) ∈ querySet s →
      (Kzg.lookupLast Kzg.LabeledPolynomial.label ((ts ++ us).map (·.1)) l).isSome := by
    intro l z hl
    rw [hall1]
    simp only [querySet, List.mem_cons, List.not_mem_nil, or_false, Prod.mk.injEq] at hl
    rcases hl with ⟨rfl, _⟩ | ⟨rfl, _⟩ | ⟨rfl, _⟩ | ⟨rfl, _⟩ | ⟨rfl, _⟩ | ⟨rfl, _⟩ | ⟨rfl, _⟩ | ⟨rfl, _⟩ |
      ⟨rfl, _⟩ | ⟨rfl, _⟩ | ⟨rfl, _⟩ | ⟨rfl, _⟩ | ⟨rfl, _⟩ | ⟨rfl, _⟩ | ⟨rfl, _⟩ | ⟨rfl, _⟩ | ⟨rfl, _⟩ |
      ⟨rfl, _⟩ | ⟨rfl, _⟩ | ⟨rfl, _⟩ | ⟨rfl, _⟩ <;>
    simp [Kzg.lookupLast, hps, forgePolys, IndexData.polys]
  have := Kzg.rawBatch_check e (h := h) (ξ := ξ) (ts ++ us) hall (evalMap (querySet s) evals) (querySet s)
    (by
      intro l z hl
      have := hsome l z hl
      rw [Kzg.lookupLast_map] at this
      simpa using this)
    (by
      intro l z hl p hp
      rw [hevals, evalMap_map _ _ hl, hval]
      dsimp only
      rw [← hall1, hp])
  unfold liftPc
  have h3 : rng.opening [.seed ivk pi, .comms [], .comms [], .comms c3, .evals evals] = ξ := rfl
  rw [h3, this]

/-! ### What does hold -/

theorem ahpIndex_full {checked : Bool} {mk : Nat → Option (Domain F)} {cs : CS F}
    {d : IndexData F} (h : ahpIndex checked mk cs = .ok d) :
    (Ics.of cs).makeSquare.process checked = .ok (d.a, d.b, d.c) ∧
    d.info.num_constraints = d.c.length ∧
    ∃ D H K, mk cs.inputs.length = some D ∧ mk d.info.num_constraints = some H ∧
      cs.inputs.length ≤ d.info.num_constraints ∧
      mk d.info.num_non_zeros = some K ∧ compose D H K d.a = .ok d.a_star ∧ compose D H K d.b = .ok d.b_star ∧
      compose D H K d.c = .ok d.c_star := by
  unfold ahpIndex at h
  obtain ⟨m, h1, h⟩ := Kzg.bind_ok h
  obtain ⟨D, hD, h⟩ := Kzg.bind_ok h
  obtain ⟨H, hH, h⟩ := Kzg.bind_ok h
  obtain ⟨K, hK, h⟩ := Kzg.bind_ok h
  split at h
  · cases h
  obtain ⟨_, _, h⟩ := Kzg.bind_ok h
  obtain ⟨a, ha, h⟩ := Kzg.bind_ok h
  obtain ⟨b, hb, h⟩ := Kzg.bind_ok h
  obtain ⟨c, hc, h⟩ := Kzg.bind_ok h
  injection h with h
  have hlen := (makeSquare_length cs).2.2
  have hp := liftSyn_ok h1
  have hin : (Ics.of cs).makeSquare.numInputs = cs.inputs.length := by
    unfold Ics.makeSquare Ics.of; dsimp only; split <;> rfl
  rw [hin] at hD hlen hH
  have hc' := (C37_partial checked cs (A := m.1) (B := m.2.1) (C := m.2.2) hp).1
  rw [hin] at hc'
  rw [← h]
  refine ⟨hp, ?_, D, H, K, domain_ok hD, ?_, ?_, domain_ok hK, ha, hb, hc⟩
  · dsimp only
    omega
  · dsimp only
    rw [hlen]
    exact domain_ok hH
  · dsimp only
    omega

/-- The statement for proofs whose messages are fixed in the order of the protocol and whose commitments
bind (C39): a prover whose polynomials `w`, `z_a`, `z_b`, `mask` are fixed before any challenge, `t`, `g_1`,
`h_1` before `β`, and `g_2`, `h_2` before `γ`, and who passes the verifier's two equations for all challenges
in a set with more elements than the degrees allow, proves the statement: there is a satisfying assignment
with the public inputs.  Missing for C35: the code does not fix the messages in this order (`C35_violated`).
A case that meets everything assumed is in `Props/MarlinSoundCase.lean`. -/
theorem C35_partial {checked : Bool} {mk : Nat → Option (Domain F)} (hmk : MkOk mk) {cs : CS F}
    {d : IndexData F} (hd : ahpIndex checked mk cs = .ok d) {H K D : Domain F}
    (hH : mk d.info.num_constraints = some H) (hK : mk d.info.num_non_zeros = some K)
    (hH2 : 2 ≤ H.size) (hK2 : 2 ≤ K.size)
    (pi : List F) (hD : mk (1 :: pi).length = some D) (hpi : cs.inputs.length = pi.length + 1)
    (deg : Nat) (hdeg : H.size ≤ deg) (w za zb mask : F[X]) (t g1 h1 : F → F → F → F → F[X])
    (g2 h2 : F → F → F → F → F → F[X])
    (d1 : w.natDegree ≤ deg) (d2 : za.natDegree ≤ deg) (d3 : zb.natDegree ≤ deg) (d4 : mask.natDegree ≤ deg)
    (d5 : ∀ α ηa ηb ηc, (t α ηa ηb ηc).natDegree ≤ deg ∧ (h1 α ηa ηb ηc).natDegree ≤ deg ∧
      (g1 α ηa ηb ηc).natDegree ≤ H.size - 2)
    (d6 : ∀ α ηa ηb ηc β, (h2 α ηa ηb ηc β).natDegree ≤ deg ∧ (g2 α ηa ηb ηc β).natDegree ≤ K.size - 2)
    (S : Finset F) (hS : 2 * deg + 2 * H.size + 4 * K.size < S.card) (hSH : ∀ x ∈ S, H.vanishing x ≠ 0)
    (houter : ∀ α ∈ S, ∀ ηa ∈ S, ∀ ηb ∈ S, ∀ ηc ∈ S, ∀ β ∈ S, ∀ γ ∈ S,
      outerCheck ⟨H, K, α, ηa, ηb, ηc, β, γ⟩ (D.vanishing β) ((interpolate D (1 :: pi)).eval β) (mask.eval β)
        (za.eval β) (zb.eval β) (w.eval β) ((t α ηa ηb ηc).eval β) ((h1 α ηa ηb ηc).eval β)
        ((g1 α ηa ηb ηc).eval β) = true)
    (hinner : ∀ α ∈ S, ∀ ηa ∈ S, ∀ ηb ∈ S, ∀ ηc ∈ S, ∀ β ∈ S, ∀ γ ∈ S,
      let s : VState F := ⟨H, K, α, ηa, ηb, ηc, β, γ⟩
      innerCheck s ((h2 α ηa ηb ηc β).eval γ) ((g2 α ηa ηb ηc β).eval γ) ((t α ηa ηb ηc).eval β)
        (d.a_star.val.eval γ) (d.b_star.val.eval γ) (d.c_star.val.eval γ)
        (denom s (d.a_star.row.eval γ) (d.a_star.col.eval γ) (d.a_star.row_col.eval γ))
        (denom s (d.b_star.row.eval γ) (d.b_star.col.eval γ) (d.b_star.row_col.eval γ))
        (denom s (d.c_star.row.eval γ) (d.c_star.col.eval γ) (d.c_star.row_col.eval γ)) = true) :
    ∃ z : Nat → F, (∀ i ≤ pi.length, z i = (1 :: pi).getD i 0) ∧ CS.Sat (assign cs.inputs.length z) cs := by
  obtain ⟨hproc, hlen, D', H', K', hD', hH', hin, hK', ca, cb, cc⟩ := ahpIndex_full hd
  have hD2 : mk cs.inputs.length = some D := by rw [hpi]; simpa using hD
  rw [hD2] at hD'
  rw [hH] at hH'
  rw [hK] at hK'
  injection hD' with hD'
  injection hH' with hH'
  injection hK' with hK'
  subst hD' hH' hK'
  have vH := hmk.valid hH
  have vK := hmk.valid hK
  have vD := hmk.valid hD
  obtain ⟨p, hsub⟩ := MkOk.isSub hmk hD2 hH hin
  have ga := compose_good vK ca
  have gb := compose_good vK cb
  have gc := compose_good vK cc
  have hge := hmk.ge hH
  obtain ⟨-, hsat⟩ := C37_partial checked cs hproc
  set x := interpolate D (1 :: pi) with hx
  set zp : F[X] := (X ^ D.size - 1) * w + x with hzp
  have hla : d.a.length = d.c.length ∧ d.b.length = d.c.length := by
    have h0 : CS.Sat (assign cs.inputs.length (fun _ => (0 : F))) cs := by
      intro k _
      have h1 : ∀ l : LC F, LC.eval (assign cs.inputs.length (fun _ => (0 : F))) l = 0 := by
        intro l
        unfold LC.eval
        apply List.sum_eq_zero
        intro y hy
        obtain ⟨t, _, rfl⟩ := List.mem_map.mp hy
        cases t.1 <;> simp [assign]
      unfold R1C.Holds
      rw [h1, h1, h1, mul_zero]
    have := (hsat _).mpr h0
    exact ⟨this.1, this.2.1⟩
  -- inner sum-checks determine `t`
  have ht : ∀ α ∈ S, ∀ ηa ∈ S, ∀ ηb ∈ S, ∀ ηc ∈ S, t α ηa ηb ηc =
      C ηa * tPart H K d.a_star α + C ηb * tPart H K d.b_star α + C ηc * tPart H K d.c_star α := by
    intro α hα ηa h1' ηb h2' ηc h3'
    rw [← sub_eq_zero]
    apply eq_zero_of_many (S := S)
    · have e0 := (d5 α ηa ηb ηc).1
      have e1 : (C ηa * tPart H K d.a_star α + C ηb * tPart H K d.b_star α
          + C ηc * tPart H K d.c_star α).natDegree ≤ H.size - 1 := by
        refine Kzg.natDegree_add_le' (Kzg.natDegree_add_le' ?_ ?_) ?_ <;>
        exact Kzg.natDegree_C_mul_le' _ (tPart_natDegree vH _ _ _)
      have := natDegree_sub_le (t α ηa ηb ηc) (C ηa * tPart H K d.a_star α + C ηb * tPart H K d.b_star α
          + C ηc * tPart H K d.c_star α)
      omega
    · intro β hβ
      have h0 := inner_sound (s := ⟨H, K, α, ηa, ηb, ηc, β, 0⟩) vH vK hK2 (hSH α hα) (hSH β hβ) ga gb gc
        (S := S) (deg := deg) (h2 := h2 α ηa ηb ηc β) (g2 := g2 α ηa ηb ηc β) (t := (t α ηa ηb ηc).eval β)
        (d6 α ηa ηb ηc β).1 (d6 α ηa ηb ηc β).2 (by dsimp only; omega)
        (fun γ hγ => hinner α hα ηa h1' ηb h2' ηc h3' β hβ γ hγ)
      rw [eval_sub, h0]
      rw [Finset.sum_congr rfl fun k hk => num_div (s := ⟨H, K, α, ηa, ηb, ηc, β, 0⟩) vH (hSH α hα) (hSH β hβ)
        ga gb gc (Finset.mem_range.mp hk)]
      simp only [eval_add, eval_mul, eval_C, tPart_eval, Finset.sum_add_distrib, Finset.mul_sum]
      ring
  -- the outer sum-check
  set z := readAt H D zp with hz
  have hsum : ∀ α ∈ S, ∀ ηa ∈ S, ∀ ηb ∈ S, ∀ ηc ∈ S,
      ∑ j ∈ Finset.range H.size, mask.eval (H.ω ^ j) +
      (ηa * ∑ i ∈ Finset.range H.size, (cofactor H (H.ω ^ i)).eval α *
        (za.eval (H.ω ^ i) - rowVal z (d.a.getD i [])) +
      ηb * ∑ i ∈ Finset.range H.size, (cofactor H (H.ω ^ i)).eval α *
        (zb.eval (H.ω ^ i) - rowVal z (d.b.getD i [])) +
      ηc * ∑ i ∈ Finset.range H.size, (cofactor H (H.ω ^ i)).eval α *
        (za.eval (H.ω ^ i) * zb.eval (H.ω ^ i) - rowVal z (d.c.getD i []))) = 0 := by
    intro α hα ηa h1' ηb h2' ηc h3'
    have hne : S.Nonempty := ⟨α, hα⟩
    have h0 := outer_sound (s := ⟨H, K, α, ηa, ηb, ηc, 0, α⟩) vH hH2 (hSH α hα) hsub.le vD (S := S)
      (deg := deg) (x := x) (w := w) (za := za) (zb := zb) (mask := mask) (t := t α ηa ηb ηc)
      (g1 := g1 α ηa ηb ηc) (h1 := h1 α ηa ηb ηc)
      ((natDegree_le_of_degree (interpolate_degree D _)).trans (by have := hsub.le; dsimp only; omega))
      d1 d2 d3 d4 (d5 α ηa ηb ηc).1 (d5 α ηa ηb ηc).2.1 (d5 α ηa ηb ηc).2.2 (by dsimp only; omega)
      (fun β hβ => houter α hα ηa h1' ηb h2' ηc h3' β hβ α hα)
    dsimp only at h0
    rw [ht α hα ηa h1' ηb h2' ηc h3', ← hzp] at h0
    have s1 := tPart_sum vH vK ca (by omega) zp α
    have s2 := tPart_sum vH vK cb (by omega) zp α
    have s3 := tPart_sum vH vK cc (by omega) zp α
    rw [← hz] at s1 s2 s3
    simp only [mul_sub, Finset.sum_sub_distrib]
    rw [← s1, ← s2, ← s3, ← h0]
    simp only [eval_add, eval_mul, eval_C, Finset.sum_sub_distrib, Finset.sum_add_distrib, mul_add, add_mul,
      Finset.mul_sum]
    simp only [← Finset.sum_add_distrib, ← Finset.sum_sub_distrib]
    refine Finset.sum_congr rfl fun j _ => ?_
    ring
  obtain ⟨u, hu, v, hv, huv⟩ := Finset.one_lt_card.mp (show 1 < S.card by omega)
  have hsub' : u - v ≠ 0 := sub_ne_zero.mpr huv
  have hA := cofactor_comb vH (S := S) (by omega) (u := fun i => za.eval (H.ω ^ i) - rowVal z (d.a.getD i [])) (by
    intro α hα
    have e1 := hsum α hα u hu u hu u hu
    have e2 := hsum α hα v hv u hu u hu
    refine (mul_eq_zero.mp ?_).resolve_left hsub'
    linear_combination e1 - e2)
  have hB := cofactor_comb vH (S := S) (by omega) (u := fun i => zb.eval (H.ω ^ i) - rowVal z (d.b.getD i [])) (by
    intro α hα
    have e1 := hsum α hα u hu u hu u hu
    have e2 := hsum α hα u hu v hv u hu
    refine (mul_eq_zero.mp ?_).resolve_left hsub'
    linear_combination e1 - e2)
  have hC := cofactor_comb vH (S := S) (by omega)
    (u := fun i => za.eval (H.ω ^ i) * zb.eval (H.ω ^ i) - rowVal z (d.c.getD i [])) (by
    intro α hα
    have e1 := hsum α hα u hu u hu u hu
    have e2 := hsum α hα u hu u hu v hv
    refine (mul_eq_zero.mp ?_).resolve_left hsub'
    linear_combination e1 - e2)
  refine ⟨z, ?_, (hsat z).mp ⟨hla.1, hla.2, ?_⟩⟩
  · intro i hi
    have hiD : i < D.size := by
      have := hmk.ge hD2
      omega
    obtain ⟨q, hq, hlt, hq1, -⟩ := reindex_spec hsub (j := i) (by have := hsub.le; omega)
    rw [hz]
    unfold readAt
    rw [hq]
    dsimp only
    rw [hq1 hiD, pow_mul, ← hsub.gen, hzp, eval_add, eval_mul, Domain.eval_vanishing, vD.vanishing_element,
      zero_mul, zero_add, hx, interpolate_eval vD _ hiD]
  · intro i hi
    have hiH : i < H.size := by omega
    have a1 := sub_eq_zero.mp (hA i hiH)
    have b1 := sub_eq_zero.mp (hB i hiH)
    have c1 := sub_eq_zero.mp (hC i hiH)
    rw [← a1, ← b1, ← c1]

/-! ### A concrete circuit without solutions -/

open Ex17

/-- `0·w = 0` and `x·x = 2·x`, over the field with 17 elements. -/
def badCircuit : CS F17 :=
  ⟨true, [1, 1], [0], [⟨[], [(.aux 0, 1)], []⟩, ⟨[(.input 1, 1)], [(.input 1, 1)], [(.input 1, 2)]⟩]⟩

/-- There is no solution with public input 1. -/
theorem badCircuit_unsat : ¬ ∃ z : Nat → F17, (∀ i ≤ 1, z i = ([1, 1] : List F17).getD i 0) ∧
    CS.Sat (assign 2 z) badCircuit := by
  rintro ⟨z, h1, h2⟩
  have h3 := h2 ⟨[(.input 1, 1)], [(.input 1, 1)], [(.input 1, 2)]⟩ (by simp [badCircuit])
  have h4 := h1 1 le_rfl
  unfold R1C.Holds at h3
  simp [LC.eval, assign, h4] at h3
  revert h3
  decide

def K2 : Domain F17 := ⟨2, 16, 3⟩

theorem k2_valid : K2.Valid := mkAll_ok.valid (n := 2) rfl

theorem natDegree_pair {x y : F17} (h : x ≠ y) : 1 ≤ (interpolate K2 [x, y]).natDegree := by
  by_contra hc
  have h0 : (interpolate K2 [x, y]).natDegree = 0 := by omega
  rw [natDegree_eq_zero] at h0
  obtain ⟨c, hc⟩ := h0
  have e0 := interpolate_eval k2_valid [x, y] (k := 0) (by decide)
  have e1 := interpolate_eval k2_valid [x, y] (k := 1) (by decide)
  rw [← hc] at e0 e1
  simp only [eval_C, List.getD_cons_zero, List.getD_cons_succ] at e0 e1
  exact h (e0.symm.trans e1)

theorem badCircuit_compose :
    compose K2 D4 K2 ([[], [(1, 1)], []] : Matrix F17) = .ok (matrixPolys K2 [(16, 4, 4), (1, 1, 0)]) ∧
    compose K2 D4 K2 ([[(1, 2)], [(1, 1)], []] : Matrix F17) = .ok (matrixPolys K2 [(4, 1, 1), (16, 4, 4)]) ∧
    compose K2 D4 K2 ([[], [(2, 1)], []] : Matrix F17) = .ok (matrixPolys K2 [(16, 4, 8), (1, 1, 0)]) := by
  have i2 : (diagonal D4 2)⁻¹ = 4 := inv_eq_of_mul_eq_one_right (by decide)
  have i1 : (diagonal D4 1)⁻¹ = 1 := inv_eq_of_mul_eq_one_right (by decide)
  have a : composeEntries D4 K2 0 ([[], [(1, 1)], []] : Matrix F17) = .ok [(16, 4, 4)] := by
    have e2 : composeEntry D4 K2 1 ((1 : F17), 1) = .ok (16, 4, 1 * (diagonal D4 2)⁻¹) := by rfl
    rw [i2, one_mul] at e2
    simp only [composeEntries, List.mapM_cons, List.mapM_nil, e2, bind, Except.bind, pure, Except.pure]
    rfl
  have b : composeEntries D4 K2 0 ([[(1, 2)], [(1, 1)], []] : Matrix F17)
      = .ok [(4, 1, 1), (16, 4, 4)] := by
    have e1 : composeEntry D4 K2 0 ((1 : F17), 2) = .ok (4, 1, 1 * (diagonal D4 1)⁻¹) := by rfl
    have e2 : composeEntry D4 K2 1 ((1 : F17), 1) = .ok (16, 4, 1 * (diagonal D4 2)⁻¹) := by rfl
    rw [i1, one_mul] at e1
    rw [i2, one_mul] at e2
    simp only [composeEntries, List.mapM_cons, List.mapM_nil, e1, e2, bind, Except.bind, pure, Except.pure]
    rfl
  have c : composeEntries D4 K2 0 ([[], [(2, 1)], []] : Matrix F17) = .ok [(16, 4, 8)] := by
    have e2 : composeEntry D4 K2 1 ((2 : F17), 1) = .ok (16, 4, 2 * (diagonal D4 2)⁻¹) := by rfl
    rw [i2, show (2 : F17) * 4 = 8 by decide] at e2
    simp only [composeEntries, List.mapM_cons, List.mapM_nil, e2, bind, Except.bind, pure, Except.pure]
    rfl
  refine ⟨?_, ?_, ?_⟩ <;> unfold compose
  · rw [a]; rfl
  · rw [b]; rfl
  · rw [c]; rfl

/-- The polynomials of the index. -/
noncomputable def badIndex : IndexData F17 :=
  ⟨⟨3, 3, 2⟩, [[], [(1, 1)], []], [[(1, 2)], [(1, 1)], []], [[], [(2, 1)], []],
    matrixPolys K2 [(16, 4, 4), (1, 1, 0)], matrixPolys K2 [(4, 1, 1), (16, 4, 4)],
    matrixPolys K2 [(16, 4, 8), (1, 1, 0)]⟩

theorem badCircuit_ahp (checked : Bool) : ahpIndex checked mkAll badCircuit = .ok badIndex := by
  have hp : (Ics.of badCircuit).makeSquare.process checked
      = .ok ([[], [(1, 1)], []], [[(1, 2)], [(1, 1)], []], [[], [(2, 1)], []]) := by
    cases checked <;> rfl
  obtain ⟨h1, h2, h3⟩ := badCircuit_compose
  unfold ahpIndex
  dsimp only
  rw [hp]
  simp only [liftSyn, bind, Except.bind]
  have e1 : domain mkAll (Ics.of badCircuit).makeSquare.numInputs = .ok K2 := by rfl
  have e2 : domain mkAll ((Ics.of badCircuit).makeSquare.numInputs + (Ics.of badCircuit).makeSquare.numWitness)
      = .ok D4 := by rfl
  have e3 : domain mkAll (numNonZeros (([[], [(1, 1)], []], [[(1, 2)], [(1, 1)], []], [[], [(2, 1)], []]) :
      Matrix F17 × Matrix F17 × Matrix F17)) = .ok K2 := by rfl
  have e4 : domain mkAll (3 * K2.size - 3) = .ok D4 := by rfl
  rw [e1, e2, e3]
  dsimp only
  rw [if_neg (by decide), e4]
  dsimp only
  rw [h1, h2, h3]
  rfl

/-- The index exists, for every trapdoor and choice of generators. -/
theorem badCircuit_index (checked : Bool) (τ g γ h : F17) : ∃ ipk ivk,
    index checked mkAll (Kzg.setup 13 τ g γ h) badCircuit = .ok (ipk, ivk) ∧
    ivk.info = ⟨3, 3, 2⟩ := by
  have ht := Kzg.setup_trim_spec (N := 13) (s := 13) le_rfl τ g γ h
  obtain ⟨crs, hc⟩ := Kzg.C38_list_success ht (badIndex.polys.map fun p => (p, 0, 0)) (by
    intro p hp
    obtain ⟨q, hq, rfl⟩ := List.mem_map.mp hp
    dsimp only
    have key : ∀ x y : F17, x ≠ y → 1 ≤ (interpolate K2 [x, y]).natDegree ∧
        (interpolate K2 [x, y]).natDegree ≤ 13 := fun x y hxy =>
      ⟨natDegree_pair hxy, (natDegree_le_of_degree (interpolate_degree K2 [x, y])).trans (by decide)⟩
    have : (1 ≤ q.polynomial.natDegree ∧ q.polynomial.natDegree ≤ 13) ∧ q.degree_bound = none ∧
        q.hiding_bound = none := by
      simp only [IndexData.polys, badIndex, matrixPolys, List.map_cons, List.map_nil, List.mem_cons,
        List.not_mem_nil, or_false] at hq
      rcases hq with rfl | rfl | rfl | rfl | rfl | rfl | rfl | rfl | rfl | rfl | rfl | rfl <;>
        exact ⟨key _ _ (by decide), rfl, rfl⟩
    obtain ⟨⟨h1, h2⟩, h3, h4⟩ := this
    refine ⟨h1, h2, ?_, ?_⟩
    · intro d hd; rw [h3] at hd; cases hd
    · intro d hd; rw [h4] at hd; cases hd)
  have hd : maxDegree mkAll badIndex.info = .ok 13 := by rfl
  have hl : ¬ (Kzg.setup 13 τ g γ h).powers_of_g.length - 1 < 13 := by simp [Kzg.setup]
  unfold index
  rw [badCircuit_ahp]
  simp only [bind, Except.bind, hd, if_neg hl, ht, liftPc, hc]
  exact ⟨_, _, rfl, rfl⟩

/-- Marlin's verifier accepts a proof of a false statement: for every trapdoor and every random oracle
(whose first values of rounds one and two are outside the domain, so that the sampling loops end), the
forged proof for a circuit without solution is accepted. -/
theorem C35_violated (checked : Bool) (τ g γ h : F17) (rng : FsRng F17 F17 F17)
    (hr : ∀ m, D4.vanishing (rng.draw m 0) ≠ 0) (e : F17 →ₗ[F17] F17 →ₗ[F17] F17) :
    ∃ ipk ivk, index checked mkAll (Kzg.setup 13 τ g γ h) badCircuit = .ok (ipk, ivk) ∧
      verify mkAll rng e ivk (forge mkAll rng ipk [1]) [1] = .ok true ∧
      ¬ ∃ z : Nat → F17, (∀ i ≤ 1, z i = ([1, 1] : List F17).getD i 0) ∧
        CS.Sat (assign badCircuit.inputs.length z) badCircuit := by
  obtain ⟨ipk, ivk, hi, hinfo⟩ := badCircuit_index checked τ g γ h
  refine ⟨ipk, ivk, hi, ?_, badCircuit_unsat⟩
  have hsamp : ∀ stream : Nat → F17, D4.vanishing (stream 0) ≠ 0 → ∃ x, sampleOutside D4 stream 0 = some x := by
    intro stream h0
    unfold sampleOutside
    rw [dif_pos ⟨0, le_rfl, h0⟩]
    exact ⟨_, rfl⟩
  obtain ⟨s0, hs⟩ : ∃ s0, challenges mkAll rng ivk [1] [] [] [] = .ok s0 := by
    unfold challenges
    dsimp only
    rw [hinfo]
    have e2 : domain mkAll 3 = .ok D4 := by rfl
    have e3 : domain mkAll 2 = .ok K2 := by rfl
    obtain ⟨⟨α, k⟩, e4⟩ := hsamp (rng.draw [.seed ivk [1], .comms []]) (hr _)
    obtain ⟨⟨β, l⟩, e5⟩ := hsamp (rng.draw ([.seed ivk [1], .comms []] ++ [.comms []])) (hr _)
    simp only [ne_eq, not_true_eq_false, if_false, e2, e3, bind, Except.bind, e4, e5]
    exact ⟨_, rfl⟩
  have hb : degreeBounds mkAll ivk.info
      = .ok [none, none, none, none, none, some 2, none, some 0, none] := by rw [hinfo]; rfl
  exact C35_forgery mkAll_ok rng e hi [1] hs hb (D := K2) rfl

/-- The hypothesis on the oracle can be met. -/
example : ∃ rng : FsRng F17 F17 F17, ∀ m, D4.vanishing (rng.draw m 0) ≠ 0 :=
  ⟨⟨fun _ _ => 3, fun _ => 5⟩, fun _ => (by decide : D4.vanishing 3 ≠ 0)⟩

/-- So the full statement is false, for every bilinear map and every such oracle. -/
theorem C35_statement_false (rng : FsRng F17 F17 F17) (hr : ∀ m, D4.vanishing (rng.draw m 0) ≠ 0)
    (e : F17 →ₗ[F17] F17 →ₗ[F17] F17) : ¬ C35_statement F17 F17 F17 F17 mkAll rng e := by
  intro hst
  obtain ⟨ipk, ivk, hi, hv, hun⟩ := C35_violated false 3 1 2 1 rng hr e
  exact hun (hst 13 3 1 2 1 badCircuit ipk ivk _ [1] hi rfl hv)

end Zkp.Marlin
