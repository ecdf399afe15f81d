/- A forger for Marlin: it uses public data only. -/
import Verif.Proof.MarlinPlace
import Verif.Proof.Kzg
import Verif.Props.MarlinCs

set_option linter.unusedSectionVars false
set_option linter.unusedSimpArgs false

namespace Zkp.Marlin

open Polynomial

variable {F : Type} [Field F] [DecidableEq F]
variable {G1 G2 GT : Type} [AddCommGroup G1] [AddCommGroup G2] [AddCommGroup GT]
  [Module F G1] [Module F G2] [Module F GT]

/-! ### The forger -/

/-- Denominator of a matrix as a polynomial. -/
noncomputable def denPoly (s : VState F) (m : MatrixPolys F) : F[X] :=
  C (s.alpha * s.beta) - C s.alpha * m.row - C s.beta * m.col + m.row_col

/-- Numerator of the inner sum-check. -/
noncomputable def numPoly (s : VState F) (a b c : MatrixPolys F) : F[X] :=
  (C s.eta_a * a.val * denPoly s b * denPoly s c + C s.eta_b * b.val * denPoly s c * denPoly s a
    + C s.eta_c * c.val * denPoly s a * denPoly s b) * C (s.H.vanishing s.alpha * s.H.vanishing s.beta)

/-- Common denominator of the inner sum-check. -/
noncomputable def prodPoly (s : VState F) (a b c : MatrixPolys F) : F[X] :=
  denPoly s a * denPoly s b * denPoly s c

/-- The summand of the inner sum-check, interpolated on `K`. -/
noncomputable def sumPoly (s : VState F) (a b c : MatrixPolys F) : F[X] :=
  interpolate s.K ((List.range s.K.size).map fun k =>
    (numPoly s a b c).eval (s.K.ω ^ k) / (prodPoly s a b c).eval (s.K.ω ^ k))

/-- The forger's nine polynomials: `w`, `z_a`, `z_b`, `g_1`, `h_1` are zero, `t` is the constant that the
inner sum-check needs, the mask is the constant that the outer one needs. -/
noncomputable def forgePolys (s : VState F) (d : IndexData F) (xβ : F) : List (Kzg.LabeledPolynomial F) :=
  let f := sumPoly s d.a_star d.b_star d.c_star
  let t := (s.K.size : F) * f.coeff 0
  [⟨"w", 0, none, none⟩, ⟨"z_a", 0, none, none⟩, ⟨"z_b", 0, none, none⟩, ⟨"mask", C (t * xβ), none, none⟩,
    ⟨"t", C t, none, none⟩, ⟨"g_1", 0, some (s.H.size - 2), none⟩, ⟨"h_1", 0, none, none⟩,
    ⟨"g_2", f.divX, some (s.K.size - 2), none⟩,
    ⟨"h_2", (numPoly s d.a_star d.b_star d.c_star - prodPoly s d.a_star d.b_star d.c_star * f)
      / (X ^ s.K.size - 1), none, none⟩]

/-- A commitment without blinding, from the published powers. -/
noncomputable def rawCommit (ck : Kzg.CommitterKey G1) (p : Kzg.LabeledPolynomial F) : Kzg.Commitment G1 :=
  ⟨msm ck.powers_of_g (coeffs p.polynomial),
    p.degree_bound.map fun d => msm (ck.powers_of_g.drop (ck.supported_degree - d)) (coeffs p.polynomial)⟩

/-- The forged proof. All nine commitments are put in the third vector, so the challenges of the first two
rounds are known before any of them is chosen. -/
noncomputable def forge (mk : Nat → Option (Domain F)) (rng : FsRng F G1 G2) (ipk : IndexProverKey F G1 G2)
    (publicInput : List F) : Proof F G1 :=
  match challenges mk rng ipk.index_verifier_key publicInput [] [] [], mk (1 :: publicInput).length with
  | .ok s0, some D =>
    let ps := forgePolys s0 ipk.index ((interpolate D (1 :: publicInput)).eval s0.beta)
    let c3 := ps.map (rawCommit ipk.committer_key)
    let h3 := [.seed ipk.index_verifier_key publicInput, .comms [], .comms [], .comms c3]
    let s := { s0 with gamma := rng.draw h3 0 }
    let evals := (querySet s).map fun q =>
      match Kzg.lookupLast Kzg.LabeledPolynomial.label (ipk.index.polys ++ ps) q.1 with
      | some p => p.polynomial.eval q.2
      | none => 0
    let ξ := rng.opening (h3 ++ [.evals evals])
    ⟨[[], [], c3], evals,
      Kzg.rawBatch ipk.committer_key
        ((ipk.index.polys.zip ipk.index_rands) ++ ps.map fun p => (p, ⟨0, some 0⟩)) (querySet s) ξ⟩
  | _, _ => ⟨[], [], []⟩

/-! ### Index polynomials -/

/-- What the index polynomials of a matrix satisfy. -/
structure Good (H K : Domain F) (m : MatrixPolys F) : Prop where
  row : m.row.degree < K.size
  col : m.col.degree < K.size
  val : m.val.degree < K.size
  row_col : m.row_col.degree < K.size
  pts : ∀ k < K.size, ∃ i j, m.row.eval (K.ω ^ k) = H.ω ^ i ∧ m.col.eval (K.ω ^ k) = H.ω ^ j ∧
    m.row_col.eval (K.ω ^ k) = H.ω ^ i * H.ω ^ j

theorem interpolate_degree (D : Domain F) (v : List F) : (interpolate D v).degree < D.size := by
  have := polyOf_degree (D.ifft v)
  rwa [Domain.ifft_length] at this

theorem composeEntries_pts {H X : Domain F} : ∀ {m : Matrix F} {i : Nat} {l : List (F × F × F)},
    composeEntries H X i m = .ok l → ∀ t ∈ l, ∃ a b, t.1 = H.ω ^ a ∧ t.2.1 = H.ω ^ b := by
  intro m
  induction m with
  | nil => intro i l h; injection h with h; subst h; simp
  | cons r m ih =>
    intro i l h
    unfold composeEntries at h
    obtain ⟨x, h1, h2⟩ := Kzg.bind_ok h
    obtain ⟨y, h3, h4⟩ := Kzg.bind_ok h2
    injection h4 with h4
    subst h4
    intro t ht
    rcases List.mem_append.mp ht with ht | ht
    · rw [Kzg.mapM_ok] at h1
      obtain ⟨n, hn, rfl⟩ := List.mem_iff_getElem.mp ht
      have := List.forall₂_iff_get.mp h1
      have := this.2 n (by rw [this.1]; exact hn) hn
      unfold composeEntry at this
      obtain ⟨j, _, h5⟩ := Kzg.bind_ok this
      split at h5
      · injection h5 with h5
        change _ = x[n] at h5
        exact ⟨j, i, (congrArg (·.1) h5).symm, (congrArg (·.2.1) h5).symm⟩
      · cases h5
    · exact ih h3 t ht

theorem compose_good {D H K : Domain F} (hK : K.Valid) {m : Matrix F} {p : MatrixPolys F}
    (h : compose D H K m = .ok p) : Good H K p := by
  unfold compose at h
  obtain ⟨l0, h1, h2⟩ := Kzg.bind_ok h
  obtain ⟨l, h3, h4⟩ := Kzg.bind_ok h2
  injection h4 with h4
  subst h4
  unfold padEntries at h3
  split at h3
  · cases h3
  rename_i hlen
  injection h3 with h3
  have hl : l.length = K.size := by rw [← h3]; simp; omega
  have hpt : ∀ t ∈ l, ∃ a b, t.1 = H.ω ^ a ∧ t.2.1 = H.ω ^ b := by
    intro t ht
    rw [← h3] at ht
    rcases List.mem_append.mp ht with ht | ht
    · exact composeEntries_pts h1 t ht
    · rw [List.eq_of_mem_replicate ht]
      exact ⟨0, 0, by simp, by simp⟩
  refine ⟨interpolate_degree _ _, interpolate_degree _ _, interpolate_degree _ _, interpolate_degree _ _, ?_⟩
  intro k hk
  obtain ⟨a, b, e1, e2⟩ := hpt (l[k]'(by omega)) (List.getElem_mem _)
  refine ⟨a, b, ?_, ?_, ?_⟩ <;>
  · simp only [matrixPolys]
    rw [interpolate_eval hK _ hk, List.getD_eq_getElem _ _ (by simpa [hl] using hk)]
    simp only [List.getElem_map, e1, e2]

/-! ### The inner sum-check of the forger -/

theorem vanishing_ne {H : Domain F} (hH : H.Valid) {x : F} (hx : H.vanishing x ≠ 0) (i : Nat) :
    x - H.ω ^ i ≠ 0 := by
  intro h
  rw [sub_eq_zero.mp h] at hx
  exact hx (hH.vanishing_element i)

theorem den_ne {s : VState F} (hH : s.H.Valid) (ha : s.H.vanishing s.alpha ≠ 0)
    (hb : s.H.vanishing s.beta ≠ 0) {m : MatrixPolys F} (hm : Good s.H s.K m) {k : Nat} (hk : k < s.K.size) :
    (denPoly s m).eval (s.K.ω ^ k) ≠ 0 := by
  obtain ⟨i, j, e1, e2, e3⟩ := hm.pts k hk
  have : (denPoly s m).eval (s.K.ω ^ k) = (s.beta - s.H.ω ^ i) * (s.alpha - s.H.ω ^ j) := by
    unfold denPoly
    simp only [eval_add, eval_sub, eval_mul, eval_C, e1, e2, e3]
    ring
  rw [this]
  exact mul_ne_zero (vanishing_ne hH hb i) (vanishing_ne hH ha j)

theorem natDegree_le_of_degree {K : Domain F} {p : F[X]} (h : p.degree < K.size) :
    p.natDegree ≤ K.size - 1 := by
  by_cases hp : p = 0
  · simp [hp]
  · have := (natDegree_lt_iff_degree_lt hp).mpr h
    omega

theorem den_natDegree {s : VState F} {m : MatrixPolys F} (hm : Good s.H s.K m) :
    (denPoly s m).natDegree ≤ s.K.size - 1 := by
  unfold denPoly
  have h1 := natDegree_le_of_degree hm.row
  have h2 := natDegree_le_of_degree hm.col
  have h3 := natDegree_le_of_degree hm.row_col
  refine Kzg.natDegree_add_le' ((natDegree_sub_le _ _).trans (max_le ((natDegree_sub_le _ _).trans
    (max_le ?_ ?_)) ?_)) h3
  · rw [natDegree_C]; omega
  · exact Kzg.natDegree_C_mul_le' _ h1
  · exact Kzg.natDegree_C_mul_le' _ h2

theorem mul3_natDegree {p q r : F[X]} {n : Nat} (hp : p.natDegree ≤ n) (hq : q.natDegree ≤ n)
    (hr : r.natDegree ≤ n) : (p * q * r).natDegree ≤ 3 * n := by
  have h1 := natDegree_mul_le (p := p * q) (q := r)
  have h2 := natDegree_mul_le (p := p) (q := q)
  omega

theorem num_natDegree {s : VState F} {a b c : MatrixPolys F} (ha : Good s.H s.K a) (hb : Good s.H s.K b)
    (hc : Good s.H s.K c) : (numPoly s a b c).natDegree ≤ 3 * (s.K.size - 1) := by
  unfold numPoly
  refine (natDegree_mul_C_le _ _).trans ?_
  refine Kzg.natDegree_add_le' (Kzg.natDegree_add_le' ?_ ?_) ?_
  · exact mul3_natDegree (Kzg.natDegree_C_mul_le' _ (natDegree_le_of_degree ha.val)) (den_natDegree hb)
      (den_natDegree hc)
  · exact mul3_natDegree (Kzg.natDegree_C_mul_le' _ (natDegree_le_of_degree hb.val)) (den_natDegree hc)
      (den_natDegree ha)
  · exact mul3_natDegree (Kzg.natDegree_C_mul_le' _ (natDegree_le_of_degree hc.val)) (den_natDegree ha)
      (den_natDegree hb)

variable {s : VState F} {a b c : MatrixPolys F}

theorem inner_dvd (hH : s.H.Valid) (hK : s.K.Valid) (hα : s.H.vanishing s.alpha ≠ 0)
    (hβ : s.H.vanishing s.beta ≠ 0) (ha : Good s.H s.K a) (hb : Good s.H s.K b) (hc : Good s.H s.K c) :
    (numPoly s a b c - prodPoly s a b c * sumPoly s a b c) / (X ^ s.K.size - 1) * (X ^ s.K.size - 1)
      = numPoly s a b c - prodPoly s a b c * sumPoly s a b c := by
  obtain ⟨Q, hQ, -⟩ := hK.dvd_of_zero (P := numPoly s a b c - prodPoly s a b c * sumPoly s a b c) (by
    intro k hk
    have hne : (prodPoly s a b c).eval (s.K.ω ^ k) ≠ 0 := by
      unfold prodPoly
      rw [eval_mul, eval_mul]
      exact mul_ne_zero (mul_ne_zero (den_ne hH hα hβ ha hk) (den_ne hH hα hβ hb hk)) (den_ne hH hα hβ hc hk)
    rw [eval_sub, eval_mul]
    unfold sumPoly
    rw [interpolate_eval hK _ hk, List.getD_eq_getElem _ _ (by simpa using hk)]
    simp only [List.getElem_map, List.getElem_range]
    field_simp
    ring)
  rw [hQ, mul_div_cancel_right₀ _ (Domain.monic_vanishing hK).ne_zero]

theorem h2_natDegree (hK : s.K.Valid) (ha : Good s.H s.K a) (hb : Good s.H s.K b) (hc : Good s.H s.K c) :
    ((numPoly s a b c - prodPoly s a b c * sumPoly s a b c) / (X ^ s.K.size - 1)).natDegree
      ≤ 3 * s.K.size - 3 := by
  have hm := Domain.monic_vanishing hK
  have hd : (X ^ s.K.size - 1 : F[X]).natDegree = s.K.size :=
    natDegree_eq_of_degree_eq_some (Domain.degree_vanishing hK)
  have h1 : (numPoly s a b c - prodPoly s a b c * sumPoly s a b c).natDegree ≤ 4 * (s.K.size - 1) := by
    refine (natDegree_sub_le _ _).trans (max_le ((num_natDegree ha hb hc).trans (by omega)) ?_)
    refine natDegree_mul_le.trans ?_
    have h2 : (prodPoly s a b c).natDegree ≤ 3 * (s.K.size - 1) :=
      mul3_natDegree (den_natDegree ha) (den_natDegree hb) (den_natDegree hc)
    have h3 : (sumPoly s a b c).natDegree ≤ s.K.size - 1 :=
      natDegree_le_of_degree (interpolate_degree _ _)
    omega
  rw [← divByMonic_eq_div _ hm, natDegree_divByMonic _ hm, hd]
  omega

theorem g2_natDegree : (sumPoly s a b c).divX.natDegree ≤ s.K.size - 2 := by
  rw [natDegree_divX_eq_natDegree_tsub_one]
  have : (sumPoly s a b c).natDegree ≤ s.K.size - 1 := natDegree_le_of_degree (interpolate_degree _ _)
  omega

/-- The inner check holds at every point. -/
theorem inner_forged (hH : s.H.Valid) (hK : s.K.Valid) (hα : s.H.vanishing s.alpha ≠ 0)
    (hβ : s.H.vanishing s.beta ≠ 0) (ha : Good s.H s.K a) (hb : Good s.H s.K b) (hc : Good s.H s.K c) :
    innerCheck s
      (((numPoly s a b c - prodPoly s a b c * sumPoly s a b c) / (X ^ s.K.size - 1)).eval s.gamma)
      ((sumPoly s a b c).divX.eval s.gamma) (s.K.size * (sumPoly s a b c).coeff 0)
      (a.val.eval s.gamma) (b.val.eval s.gamma) (c.val.eval s.gamma)
      (denom s (a.row.eval s.gamma) (a.col.eval s.gamma) (a.row_col.eval s.gamma))
      (denom s (b.row.eval s.gamma) (b.col.eval s.gamma) (b.row_col.eval s.gamma))
      (denom s (c.row.eval s.gamma) (c.col.eval s.gamma) (c.row_col.eval s.gamma)) = true := by
  have hden : ∀ m : MatrixPolys F, denom s (m.row.eval s.gamma) (m.col.eval s.gamma) (m.row_col.eval s.gamma)
      = (denPoly s m).eval s.gamma := by
    intro m
    unfold denom denPoly
    simp only [eval_add, eval_sub, eval_mul, eval_C]
  have h1 := congrArg (eval s.gamma) (inner_dvd hH hK hα hβ ha hb hc)
  rw [eval_mul, Domain.eval_vanishing, eval_sub, eval_mul] at h1
  have h2 : (sumPoly s a b c).eval s.gamma
      = s.gamma * (sumPoly s a b c).divX.eval s.gamma + (sumPoly s a b c).coeff 0 := by
    conv_lhs => rw [← divX_mul_X_add (sumPoly s a b c)]
    simp only [eval_add, eval_mul, eval_X, eval_C]
    ring
  have h3 : (s.K.size : F) * (sumPoly s a b c).coeff 0 / s.K.size = (sumPoly s a b c).coeff 0 :=
    mul_div_cancel_left₀ _ hK.size_ne
  unfold innerCheck
  rw [decide_eq_true_iff, h1, h2, h3, hden, hden, hden]
  unfold numPoly prodPoly
  simp only [eval_add, eval_mul, eval_C]

/-! ### The index -/

theorem domain_ok {mk : Nat → Option (Domain F)} {n : Nat} {D : Domain F} (h : domain mk n = .ok D) :
    mk n = some D := by
  unfold domain at h
  cases hm : mk n with
  | some E => rw [hm] at h; injection h with h; rw [h]
  | none => rw [hm] at h; cases h

theorem liftPc_ok {α : Type} {x : Except Kzg.PcError α} {y : α} (h : liftPc x = .ok y) : x = .ok y := by
  cases x with
  | ok a => injection h with h; rw [h]
  | error e => cases h

theorem liftSyn_ok {α : Type} {x : Except SynthesisError α} {y : α} (h : liftSyn x = .ok y) : x = .ok y := by
  cases x with
  | ok a => injection h with h; rw [h]
  | error e => cases e <;> cases h

theorem sortColumns_length (m : Matrix F) : (sortColumns m).length = m.length := by
  simp [sortColumns]

theorem ahpIndex_ok {checked : Bool} {mk : Nat → Option (Domain F)} (hmk : MkOk mk) {cs : CS F}
    {d : IndexData F} (h : ahpIndex checked mk cs = .ok d) :
    d.info.num_constraints = d.info.num_variables ∧
    ∃ H K, mk d.info.num_constraints = some H ∧ mk d.info.num_non_zeros = some K ∧
      Good H K d.a_star ∧ Good H K d.b_star ∧ Good H K d.c_star := by
  unfold ahpIndex at h
  obtain ⟨m, h1, h⟩ := Kzg.bind_ok h
  obtain ⟨D, hD, h⟩ := Kzg.bind_ok h
  obtain ⟨H, hH, h⟩ := Kzg.bind_ok h
  obtain ⟨K, hK, h⟩ := Kzg.bind_ok h
  split at h
  · cases h
  obtain ⟨_, _, h⟩ := Kzg.bind_ok h
  obtain ⟨a, ha, h⟩ := Kzg.bind_ok h
  obtain ⟨b, hb, h⟩ := Kzg.bind_ok h
  obtain ⟨c, hc, h⟩ := Kzg.bind_ok h
  injection h with h
  subst h
  have hH := domain_ok hH
  have hK := domain_ok hK
  have hv := hmk.valid hK
  have hlen := (makeSquare_length cs).2.2
  refine ⟨hlen, H, K, ?_, hK, compose_good hv ha, compose_good hv hb, compose_good hv hc⟩
  dsimp only
  rw [hlen]
  exact hH

/-- Everything about the keys that the forger's analysis needs. -/
structure Keys (mk : Nat → Option (Domain F)) (τ : F) (g γ : G1) (h : G2) (ipk : IndexProverKey F G1 G2)
    (ivk : IndexVerifierKey F G1 G2) (H K : Domain F) (deg : Nat) : Prop where
  hivk : ipk.index_verifier_key = ivk
  hinfo : ipk.index.info = ivk.info
  square : ivk.info.num_constraints = ivk.info.num_variables
  hH : mk ivk.info.num_constraints = some H
  hK : mk ivk.info.num_non_zeros = some K
  ga : Good H K ipk.index.a_star
  gb : Good H K ipk.index.b_star
  gc : Good H K ipk.index.c_star
  hdeg : deg = max (3 * H.size + 1) (3 * K.size - 3)
  hck : ipk.committer_key = ⟨Kzg.pows τ g (deg + 1), Kzg.pows τ γ (deg + 1), deg⟩
  hvk : ivk.verifier_key = ⟨g, γ, h, τ • h, deg⟩
  comms : ∃ ts : List (Kzg.LabeledPolynomial F × Kzg.LabeledCommitment G1 × Kzg.Randomness F),
    ipk.index.polys = ts.map (·.1) ∧ ivk.index_comms = ts.map (·.2.1.commitment) ∧
    ipk.index_rands = ts.map (·.2.2) ∧ ∀ t ∈ ts, Kzg.Commits τ g γ deg t.1 t.2.1 t.2.2

theorem index_ok {checked : Bool} {mk : Nat → Option (Domain F)} (hmk : MkOk mk) {N : Nat} {τ : F}
    {g γ : G1} {h : G2} {cs : CS F} {ipk : IndexProverKey F G1 G2} {ivk : IndexVerifierKey F G1 G2}
    (hi : index checked mk (Kzg.setup N τ g γ h) cs = .ok (ipk, ivk)) :
    ∃ H K deg, Keys mk τ g γ h ipk ivk H K deg := by
  unfold index at hi
  obtain ⟨d, h1, hi⟩ := Kzg.bind_ok hi
  obtain ⟨deg, h2, hi⟩ := Kzg.bind_ok hi
  split at hi
  · cases hi
  obtain ⟨⟨ck, vk⟩, h3, hi⟩ := Kzg.bind_ok hi
  obtain ⟨crs, h4, hi⟩ := Kzg.bind_ok hi
  injection hi with hi
  injection hi with e1 e2
  subst e1 e2
  obtain ⟨-, hck, hvk⟩ := Kzg.setup_trim (liftPc_ok h3)
  obtain ⟨hsq, H, K, hH, hK, ha, hb, hc⟩ := ahpIndex_ok hmk h1
  unfold maxDegree at h2
  obtain ⟨H', hH', h2⟩ := Kzg.bind_ok h2
  obtain ⟨K', hK', h2⟩ := Kzg.bind_ok h2
  injection h2 with h2
  have hH' := domain_ok hH'
  have hK' := domain_ok hK'
  rw [hsq, max_self, ← hsq, hH] at hH'
  rw [hK] at hK'
  injection hH' with hH'
  injection hK' with hK'
  subst hH' hK'
  refine ⟨H, K, deg, rfl, rfl, hsq, hH, hK, ha, hb, hc, ?_, hck, hvk, ?_⟩
  · omega
  · dsimp only at h4
    rw [hck] at h4
    obtain ⟨ts, e1, e2, e3, hts⟩ := Kzg.pcCommit_commits (by
      intro p hp b hb
      simp only [List.mem_map] at hp
      obtain ⟨q, _, rfl⟩ := hp
      simp) (liftPc_ok h4)
    refine ⟨ts, ?_, ?_, e3, hts⟩
    · rw [← e1, List.map_map]
      exact (List.map_id _).symm
    · have := congrArg (List.map Kzg.LabeledCommitment.commitment) e2
      simpa [List.map_map, Function.comp_def] using this

/-! ### Acceptance -/

theorem sampleOutside_ok {H : Domain F} {stream : Nat → F} {k : Nat} {x : F × Nat}
    (h : sampleOutside H stream k = some x) : H.vanishing x.1 ≠ 0 := by
  unfold sampleOutside at h
  split at h
  · rename_i hex
    injection h with h
    rw [← h]
    exact (Nat.find_spec hex).2
  · cases h

theorem challenges_ok {mk : Nat → Option (Domain F)} {rng : FsRng F G1 G2} {ivk : IndexVerifierKey F G1 G2}
    {pi : List F} {c1 c2 c3 : List (Kzg.Commitment G1)} {s : VState F}
    (h : challenges mk rng ivk pi c1 c2 c3 = .ok s) :
    mk ivk.info.num_constraints = some s.H ∧ mk ivk.info.num_non_zeros = some s.K ∧
    s.H.vanishing s.alpha ≠ 0 ∧ s.H.vanishing s.beta ≠ 0 ∧
    ∀ c3', challenges mk rng ivk pi c1 c2 c3' = .ok { s with
      gamma := rng.draw [.seed ivk pi, .comms c1, .comms c2, .comms c3'] 0 } := by
  unfold challenges at h ⊢
  dsimp only at h ⊢
  split at h
  · cases h
  rename_i hsq
  simp only [if_neg hsq]
  obtain ⟨H, hH, h1⟩ := Kzg.bind_ok h
  obtain ⟨K, hK, h2⟩ := Kzg.bind_ok h1
  cases e1 : sampleOutside H (rng.draw [.seed ivk pi, .comms c1]) 0 with
  | none => rw [e1] at h2; cases h2
  | some x =>
    obtain ⟨α, k⟩ := x
    rw [e1] at h2
    dsimp only at h2
    cases e2 : sampleOutside H (rng.draw ([.seed ivk pi, .comms c1] ++ [.comms c2])) 0 with
    | none => rw [e2] at h2; cases h2
    | some y =>
      obtain ⟨β, l⟩ := y
      rw [e2] at h2
      injection h2 with h2
      subst h2
      refine ⟨domain_ok hH, domain_ok hK, sampleOutside_ok e1, sampleOutside_ok e2, ?_⟩
      intro c3'
      rw [hH, hK]
      simp only [bind, Except.bind, e1, e2]
      rfl

theorem evalMap_map (qs : List (String × F)) (f : String × F → F) {l : String} {z : F} (h : (l, z) ∈ qs) :
    evalMap qs (qs.map f) l z = some (f (l, z)) := by
  unfold evalMap
  induction qs with
  | nil => cases h
  | cons q qs ih =>
    rw [List.map_cons, List.zip_cons_cons, List.find?_cons]
    by_cases hq : q = (l, z)
    · simp [hq]
    · simp only [hq, decide_false]
      exact ih (by simpa [Ne.symm hq] using h)

theorem getEval_map (qs : List (String × F)) (f : String × F → F) {l : String} {z : F} (h : (l, z) ∈ qs) :
    getEval (evalMap qs (qs.map f)) l z = .ok (f (l, z)) := by
  unfold getEval
  rw [evalMap_map qs f h]

theorem rawCommit_commits {τ : F} {g γ : G1} {deg : Nat} (p : Kzg.LabeledPolynomial F)
    (hd : p.polynomial.natDegree ≤ deg)
    (hb : ∀ d, p.degree_bound = some d → d ≤ deg ∧ p.polynomial.natDegree ≤ d) :
    Kzg.Commits τ g γ deg p
      ⟨p.label, rawCommit ⟨Kzg.pows τ g (deg + 1), Kzg.pows τ γ (deg + 1), deg⟩ p, p.degree_bound⟩
      ⟨0, some 0⟩ := by
  refine ⟨rfl, rfl, hd, by simp, ?_, ?_, ?_⟩
  · simp only [rawCommit]
    rw [Kzg.msm_pows _ _ _ _ (by omega)]
    simp
  · intro h
    simp [rawCommit, h]
  · intro d h
    obtain ⟨h1, h2⟩ := hb d h
    refine ⟨h1, h2, 0, rfl, by simp, ?_⟩
    simp only [rawCommit, h, Option.map_some]
    rw [Kzg.pows_drop, Kzg.msm_pows _ _ _ _ (by omega)]
    simp only [eval_zero, zero_smul, add_zero, smul_smul]
    congr 2
    ring

end Zkp.Marlin
