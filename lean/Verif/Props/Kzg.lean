/- Properties C38, C39: the polynomial commitment scheme of Marlin (/repo/marlin/src/pc). -/
import Verif.Proof.Kzg
import Verif.Proof.F17Domain

set_option linter.unusedSectionVars false

namespace Zkp.Kzg

open Polynomial

variable {F : Type} [Field F] [DecidableEq F]
variable {G1 G2 GT : Type} [AddCommGroup G1] [AddCommGroup G2] [AddCommGroup GT]
  [Module F G1] [Module F G2] [Module F GT] [DecidableEq GT]

/-! ## C38: honest openings verify -/

/-- The full statement, for one polynomial: under every key, for every polynomial of supported degree
and every blinding that the scheme offers for the key, committing and opening succeed and the check
accepts the true value. -/
def C38_statement (F G1 G2 GT : Type) [Field F] [DecidableEq F] [AddCommGroup G1] [AddCommGroup G2]
    [AddCommGroup GT] [Module F G1] [Module F G2] [Module F GT] [DecidableEq GT] : Prop :=
  ∀ (e : G1 →ₗ[F] G2 →ₗ[F] GT) (N s : Nat) (β : F) (g γ : G1) (h : G2) (ck : CommitterKey G1)
    (vk : VerifierKey G1 G2), trim (setup N β g γ h) s = .ok (ck, vk) →
  ∀ (p : F[X]) (z : F) (blind : Option (Nat × F[X])), p.natDegree ≤ s →
    (∀ d r, blind = some (d, r) → 1 ≤ d ∧ d ≤ s ∧ r.natDegree ≤ d) →
    ∃ c r proof, commit ck.powers p blind = .ok (c, r) ∧ openAt ck.powers p z r = .ok proof ∧
      check e vk c z (p.eval z) proof = true

/-- Constant polynomials are refused, under every key. -/
theorem C38_constant_refused {N s : Nat} {β : F} {g γ : G1} {h : G2} {ck : CommitterKey G1}
    {vk : VerifierKey G1 G2} (ht : trim (setup N β g γ h) s = .ok (ck, vk)) (a : F)
    (blind : Option (Nat × F[X])) : commit ck.powers (C a) blind = .error .degreeIsZero := by
  obtain ⟨_, rfl, rfl⟩ := setup_trim ht
  simp [commit, CommitterKey.powers, checkDegree, bind, Except.bind]

example : commit (⟨pows (2 : F17) (1 : F17) 3, pows (2 : F17) 3 3⟩ : Powers F17) (C (5 : F17)) none
    = .error .degreeIsZero :=
  C38_constant_refused (N := 4) (s := 2) (β := (2 : F17)) (g := (1 : F17)) (γ := (3 : F17)) (h := (1 : F17))
    (setup_trim_spec (by norm_num) _ _ _ _) 5 none

/-- The full statement fails: constants cannot be committed to. -/
theorem C38_violated : ¬ C38_statement F17 F17 F17 F17 := by
  intro hall
  have ht := setup_trim_spec (N := 4) (s := 2) (by norm_num) (2 : F17) (1 : F17) (3 : F17) (1 : F17)
  obtain ⟨c, r, pf, h1, -, -⟩ := hall Ex17.e 4 2 2 1 3 1 _ _ ht (C 5) 0 none (by simp) (by simp)
  rw [C38_constant_refused ht] at h1
  cases h1

theorem msm_take_bases {G : Type} [AddCommGroup G] [Module F G] (bs : List G) (c : List F) :
    msm bs c = msm bs (c.take bs.length) := by
  induction bs generalizing c with
  | nil => simp [msm]
  | cons b bs ih =>
    cases c with
    | nil => simp [msm]
    | cons x c =>
      have := ih c
      simp only [msm] at this ⊢
      simp [this]

/-- The top coefficient of a blinding polynomial that is too long is dropped by the commitment. -/
theorem msm_pows_truncated (β : F) (γ : G1) (s : Nat) (r : F[X]) (hr : r.natDegree = s + 1) :
    msm (pows β γ (s + 1)) (coeffs r) = (r.eval β - r.coeff (s + 1) * β ^ (s + 1)) • γ := by
  rw [msm_take_bases]
  have ht : (coeffs r).take (pows β γ (s + 1)).length = (List.range (s + 1)).map r.coeff := by
    rw [pows_length]; unfold coeffs
    rw [← List.map_take, List.take_range, hr, min_eq_left (by omega)]
  rw [ht, Bp.msm_eq_sum _ _ (s + 1) (by simp), eval_eq_sum_range, hr, Finset.sum_range_succ _ (s + 1),
    add_sub_cancel_right, Finset.sum_smul]
  apply Finset.sum_congr rfl
  intro i hi
  have hi' := Finset.mem_range.mp hi
  rw [List.getD_eq_getElem _ _ (by simpa using hi'), List.getD_eq_getElem _ _ (by simpa using hi')]
  simp [pows, mul_smul]

/-- A second violation, for every key: the hiding bound `supported degree + 1` passes the bound check
(kzg10.rs:201-209 compares with the number of powers), but a blinding polynomial of that degree loses its
top coefficient in the commitment, and the honest opening is rejected. -/
theorem C38_blinding_violated (e : G1 →ₗ[F] G2 →ₗ[F] GT) {N s : Nat} {β : F} {g γ : G1} {h : G2}
    {ck : CommitterKey G1} {vk : VerifierKey G1 G2} (ht : trim (setup N β g γ h) s = .ok (ck, vk))
    (hβ : β ≠ 0) (hγ : e γ h ≠ 0) (p : F[X]) (hp : 1 ≤ p.natDegree) (hps : p.natDegree ≤ s)
    (r : F[X]) (hr : r.natDegree = s + 1) (z : F) :
    ∃ c proof, commit ck.powers p (some (s + 1, r)) = .ok (c, r) ∧ openAt ck.powers p z r = .ok proof ∧
      check e vk c z (p.eval z) proof = false := by
  obtain ⟨_, rfl, rfl⟩ := setup_trim ht
  obtain ⟨c, r', hc⟩ := commit_spec (β := β) (g := g) (γ := γ) (n := s + 1) (m := s + 1) (p := p)
    (blind := some (s + 1, r)) hp (by omega) (by rintro d r h; injection h with h; injection h; subst d; omega)
  obtain ⟨pf, ho⟩ := openAt_spec (β := β) (g := g) (γ := γ) (n := s + 1) (m := s + 1) (p := p) (r := r) (z := z)
    hp (by omega)
  have hr0 : r ≠ 0 := by rintro rfl; simp at hr
  have hc' : c = p.eval β • g + msm (pows β γ (s + 1)) (coeffs r) ∧ r' = r := by
    unfold commit at hc
    rw [if_neg (by simp)] at hc
    obtain ⟨_, _, hc⟩ := bind_ok hc
    obtain ⟨y, hy, hc⟩ := bind_ok hc
    obtain ⟨_, _, hc⟩ := bind_ok hc
    injection hc with hc
    injection hc with h1 h2
    have := msmSkip_ok hy
    rw [msm_pows _ _ _ _ (by omega)] at this
    exact ⟨by rw [← h1, this], h2.symm⟩
  obtain ⟨hw, hv⟩ := openAt_ok (by omega) (by omega) (by omega) (by omega) ho
  obtain ⟨hc1, rfl⟩ := hc'
  refine ⟨c, pf, hc, ho, ?_⟩
  have hgood := check_honest e (vk := ⟨g, γ, h, β • h, s⟩) (β := β) rfl p r' z rfl hw hv
  unfold check at hgood ⊢
  rw [decide_eq_true_eq] at hgood
  rw [decide_eq_false_iff_not, ← hgood, ← sub_eq_zero, ← LinearMap.sub_apply, ← map_sub]
  rw [msm_pows_truncated _ _ _ _ hr] at hc1
  have hl : checkLhs (⟨g, γ, h, β • h, s⟩ : VerifierKey G1 G2) c (p.eval z) pf -
      checkLhs (⟨g, γ, h, β • h, s⟩ : VerifierKey G1 G2) (p.eval β • g + r'.eval β • γ) (p.eval z) pf
      = (-(r'.coeff (s + 1) * β ^ (s + 1))) • γ := by
    unfold checkLhs
    split <;> (simp only [hc1]; module)
  rw [hl, map_smul, LinearMap.smul_apply, smul_eq_zero, not_or]
  refine ⟨neg_ne_zero.mpr (mul_ne_zero ?_ (pow_ne_zero _ hβ)), hγ⟩
  rw [← hr]; simpa using hr0

/-- The case of degree 1: committing to `X` with the blinding polynomial `X²`. -/
example : ∃ (c : F17) (proof : Proof F17 F17),
      commit (⟨pows (2 : F17) (1 : F17) 2, pows (2 : F17) 3 2⟩ : Powers F17) (X : F17[X]) (some (2, X ^ 2))
      = .ok (c, X ^ 2) ∧ openAt (⟨pows (2 : F17) (1 : F17) 2, pows (2 : F17) 3 2⟩ : Powers F17) X 5 (X ^ 2) = .ok proof ∧
      check Ex17.e ⟨1, 3, 1, (2 : F17) • (1 : F17), 1⟩ c 5 ((X : F17[X]).eval 5) proof = false :=
  C38_blinding_violated Ex17.e (setup_trim_spec (N := 4) (s := 1) (by norm_num) (2 : F17) (1 : F17) (3 : F17)
    (1 : F17)) (by decide) (by decide) X (by simp) (by simp) (X ^ 2) (by simp) 5

/-- What holds: if `commit` and `open` return and the blinding polynomial is within the supported degree,
then the check accepts the true value.  Missing from the full statement: constants, for which `commit`
and `open` return an error (`C38_constant_refused`). -/
theorem C38_partial (e : G1 →ₗ[F] G2 →ₗ[F] GT) {N s : Nat} {β : F} {g γ : G1} {h : G2}
    {ck : CommitterKey G1} {vk : VerifierKey G1 G2} (ht : trim (setup N β g γ h) s = .ok (ck, vk))
    (p : F[X]) (z : F) (blind : Option (Nat × F[X]))
    (hb : ∀ d r, blind = some (d, r) → r.natDegree ≤ s) {c : G1} {r : F[X]} {proof : Proof F G1}
    (hc : commit ck.powers p blind = .ok (c, r)) (ho : openAt ck.powers p z r = .ok proof) :
    check e vk c z (p.eval z) proof = true := by
  obtain ⟨_, rfl, rfl⟩ := setup_trim ht
  obtain ⟨h1, h2, h3, h4, -⟩ := commit_ok (fun d r h => Nat.lt_succ_of_le (hb d r h)) hc
  have hr : r.natDegree ≤ s := by
    rw [h4]
    cases hbl : blind with
    | none => simp
    | some dr => simpa using hb dr.1 dr.2 hbl
  obtain ⟨hw, hv⟩ := openAt_ok (by omega) (by omega) (by omega) (by omega) ho
  exact check_honest e rfl p r z h3 hw hv

/-- … and they do return for every non-constant polynomial of supported degree and hiding bound from 1
to the supported degree + 1. -/
theorem C38_success {N s : Nat} {β : F} {g γ : G1} {h : G2}
    {ck : CommitterKey G1} {vk : VerifierKey G1 G2} (ht : trim (setup N β g γ h) s = .ok (ck, vk))
    (p : F[X]) (z : F) (blind : Option (Nat × F[X])) (hp : 1 ≤ p.natDegree) (hps : p.natDegree ≤ s)
    (hb : ∀ d r, blind = some (d, r) → 1 ≤ d ∧ d ≤ s + 1) :
    ∃ c r proof, commit ck.powers p blind = .ok (c, r) ∧ openAt ck.powers p z r = .ok proof := by
  obtain ⟨_, rfl, rfl⟩ := setup_trim ht
  obtain ⟨c, r, hc⟩ := commit_spec (β := β) (g := g) (γ := γ) (n := s + 1) (m := s + 1) (p := p)
    (blind := blind) hp (by omega) hb
  obtain ⟨pf, ho⟩ := openAt_spec (β := β) (g := g) (γ := γ) (n := s + 1) (m := s + 1) (p := p) (r := r) (z := z)
    hp (by omega)
  exact ⟨c, r, pf, hc, ho⟩

/-- A blinded quadratic polynomial, under a concrete key: the two theorems combined. -/
example : ∃ c r proof, commit (⟨pows (2 : F17) (1 : F17) 4, pows (2 : F17) 3 4⟩ : Powers F17) (X ^ 2) (some (1, X + C 4))
      = .ok (c, r) ∧ openAt (⟨pows (2 : F17) (1 : F17) 4, pows (2 : F17) 3 4⟩ : Powers F17) (X ^ 2) 5 r = .ok proof ∧
      check Ex17.e ⟨1, 3, 1, (2 : F17) • (1 : F17), 3⟩ c 5 ((X ^ 2 : F17[X]).eval 5) proof = true := by
  have ht := setup_trim_spec (N := 4) (s := 3) (by norm_num) (2 : F17) (1 : F17) (3 : F17) (1 : F17)
  obtain ⟨c, r, pf, h1, h2⟩ := C38_success ht (X ^ 2) 5 (some (1, X + C 4)) (by simp) (by simp)
    (by rintro d r h; injection h with h; injection h; subst d; omega)
  refine ⟨c, r, pf, h1, h2, C38_partial Ex17.e ht _ _ _ ?_ h1 h2⟩
  rintro d r h; injection h with h; injection h with _ h; rw [← h]; simp

/-- Lists of polynomials with degree and hiding bounds, opened together at one point: whatever `open`
returns is accepted for the true values, for every batching challenge.  `drawn` are the blinding
polynomials that are drawn, of degree at most the supported degree. -/
theorem C38_list_partial (e : G1 →ₗ[F] G2 →ₗ[F] GT) {N s : Nat} {β : F} {g γ : G1} {h : G2}
    {ck : CommitterKey G1} {vk : VerifierKey G1 G2} (ht : trim (setup N β g γ h) s = .ok (ck, vk))
    (ps : List (LabeledPolynomial F × F[X] × F[X]))
    (hdrawn : ∀ p ∈ ps, ∀ d, p.1.hiding_bound = some d → p.2.1.natDegree ≤ s ∧ p.2.2.natDegree ≤ s)
    {crs : List (LabeledCommitment G1 × Randomness F)} (hc : pcCommit ck ps = .ok crs) (z ξ : F)
    {proof : Proof F G1} (ho : pcOpen ck (ps.map (·.1)) z ξ (crs.map (·.2)) = .ok proof) :
    pcCheck e vk (crs.map (·.1)) z (ps.map (·.1.polynomial.eval z)) proof ξ = .ok true := by
  obtain ⟨_, rfl, rfl⟩ := setup_trim ht
  obtain ⟨ts, e1, e2, e3, hts⟩ := pcCommit_commits hdrawn hc
  rw [e1, e3] at ho
  have hm : ps.map (·.1.polynomial.eval z) = ts.map (·.1.polynomial.eval z) := by
    have := congrArg (List.map fun p : LabeledPolynomial F => p.polynomial.eval z) e1
    simpa [List.map_map, Function.comp_def] using this
  rw [e2, hm]
  exact pcOpen_check e ts hts ho

/-- Committing to a list succeeds when every polynomial is not constant and within its bounds. -/
theorem C38_list_success {N s : Nat} {β : F} {g γ : G1} {h : G2}
    {ck : CommitterKey G1} {vk : VerifierKey G1 G2} (ht : trim (setup N β g γ h) s = .ok (ck, vk))
    (ps : List (LabeledPolynomial F × F[X] × F[X]))
    (hp : ∀ p ∈ ps, 1 ≤ p.1.polynomial.natDegree ∧ p.1.polynomial.natDegree ≤ s ∧
      (∀ d, p.1.degree_bound = some d → p.1.polynomial.natDegree ≤ d ∧ d ≤ s) ∧
      ∀ b, p.1.hiding_bound = some b → 1 ≤ b ∧ b ≤ s + 1 ∧ ∀ d, p.1.degree_bound = some d → b ≤ d + 1) :
    ∃ crs, pcCommit ck ps = .ok crs := by
  obtain ⟨_, rfl, rfl⟩ := setup_trim ht
  unfold pcCommit
  simp only [mapM_ok]
  induction ps with
  | nil => exact ⟨[], .nil⟩
  | cons p ps ih =>
    obtain ⟨crs, hcrs⟩ := ih (fun p h => hp p (by simp [h]))
    obtain ⟨h1, h2, h3, h4⟩ := hp p (by simp)
    obtain ⟨c, r, hc⟩ := commit_spec (β := β) (g := g) (γ := γ) (n := s + 1) (m := s + 1)
      (p := p.1.polynomial) (blind := p.1.hiding_bound.map fun b => (b, p.2.1)) h1 (by omega) (by
        intro d r h'
        rw [Option.map_eq_some_iff] at h'
        obtain ⟨b, hb1, hb2⟩ := h'
        injection hb2 with hb2 _
        subst hb2
        exact ⟨(h4 b hb1).1, (h4 b hb1).2.1⟩)
    have hs : ∃ sc, commitShifted (⟨pows β g (s + 1), pows β γ (s + 1), s⟩ : CommitterKey G1) p.1 p.2.2
        = .ok sc := by
      unfold commitShifted
      cases hd : p.1.degree_bound with
      | none => exact ⟨none, rfl⟩
      | some d =>
        obtain ⟨h5, h6⟩ := h3 d hd
        have hpw : CommitterKey.shiftedPowers (⟨pows β g (s + 1), pows β γ (s + 1), s⟩ : CommitterKey G1) d
            = .ok ⟨pows β (β ^ (s - d) • g) (s + 1 - (s - d)), pows β γ (s + 1)⟩ := by
          unfold CommitterKey.shiftedPowers
          dsimp only
          rw [if_neg (by omega), if_neg (by rw [pows_length]; omega), pows_drop]
        obtain ⟨c2, r2, hc2⟩ := commit_spec (β := β) (g := β ^ (s - d) • g) (γ := γ) (n := s + 1 - (s - d))
          (m := s + 1) (p := p.1.polynomial) (blind := p.1.hiding_bound.map fun b => (b, p.2.2)) h1 (by omega) (by
            intro d' r h'
            rw [Option.map_eq_some_iff] at h'
            obtain ⟨b, hb1, hb2⟩ := h'
            injection hb2 with hb2 _
            subst hb2
            have := (h4 b hb1).2.2 d hd
            exact ⟨(h4 b hb1).1, by omega⟩)
        refine ⟨some (c2, r2), ?_⟩
        simp only [hpw, bind, Except.bind, hc2]
    obtain ⟨sc, hsc⟩ := hs
    refine ⟨(⟨p.1.label, ⟨c, sc.map (·.1)⟩, p.1.degree_bound⟩, ⟨r, sc.map (·.2)⟩) :: crs, .cons ?_ hcrs⟩
    unfold commitOne
    simp only [CommitterKey.powers, hc, hsc, bind, Except.bind]

/-- Opening succeeds when the combination of the polynomials is not constant; here for one polynomial
without degree bound. -/
theorem C38_open_success {N s : Nat} {β : F} {g γ : G1} {h : G2}
    {ck : CommitterKey G1} {vk : VerifierKey G1 G2} (ht : trim (setup N β g γ h) s = .ok (ck, vk))
    (p : LabeledPolynomial F) (hd : p.degree_bound = none) (hp : 1 ≤ p.polynomial.natDegree)
    (hs : p.polynomial.natDegree ≤ s) (z ξ : F) (r : Randomness F) :
    ∃ proof, pcOpen ck [p] z ξ [r] = .ok proof := by
  obtain ⟨_, rfl, rfl⟩ := setup_trim ht
  unfold pcOpen
  have : ([p].zip [r]).foldlM (openStep s ξ) (0, 0, 1) = .ok (p.polynomial, r.rand, ξ ^ 2) := by
    simp [openStep, hd]
  dsimp only
  rw [this]
  exact openAt_spec (p := p.polynomial) hp (by omega)

/-- The polynomials of the examples: `X` with degree bound 2 and hiding bound 1, and `X²`, unbounded. -/
noncomputable def exPolys : List (LabeledPolynomial F17 × F17[X] × F17[X]) :=
  [(⟨"x", X, some 2, some 1⟩, X + C 4, C 5), (⟨"y", X ^ 2, none, some 1⟩, C 3, 0)]

/-- Both are committed to under a concrete key; whenever the opening succeeds, it is accepted. -/
example : ∃ crs : List (LabeledCommitment F17 × Randomness F17),
    pcCommit (⟨pows (2 : F17) (1 : F17) 4, pows (2 : F17) 3 4, 3⟩) exPolys = .ok crs ∧
    ∀ proof, pcOpen (⟨pows (2 : F17) (1 : F17) 4, pows (2 : F17) 3 4, 3⟩) (exPolys.map (·.1)) 5 6 (crs.map (·.2))
      = .ok proof →
    pcCheck Ex17.e ⟨1, 3, 1, (2 : F17) • (1 : F17), 3⟩ (crs.map (·.1)) 5 [5, 5 ^ 2] proof 6 = .ok true := by
  have ht := setup_trim_spec (N := 4) (s := 3) (by norm_num) (2 : F17) (1 : F17) (3 : F17) (1 : F17)
  obtain ⟨crs, h1⟩ := C38_list_success ht exPolys (by simp [exPolys])
  refine ⟨crs, h1, fun proof ho => ?_⟩
  have h := C38_list_partial Ex17.e ht exPolys (by simp [exPolys]) h1 5 6 ho
  simpa [exPolys] using h

/-- A batch of queries at several points: whatever `batch_open` returns passes `batch_check`, for every
batching challenge, if the evaluation map holds the true value of each queried polynomial. -/
theorem C38_batch_partial (e : G1 →ₗ[F] G2 →ₗ[F] GT) {N s : Nat} {β : F} {g γ : G1} {h : G2}
    {ck : CommitterKey G1} {vk : VerifierKey G1 G2} (ht : trim (setup N β g γ h) s = .ok (ck, vk))
    (ps : List (LabeledPolynomial F × F[X] × F[X]))
    (hdrawn : ∀ p ∈ ps, ∀ d, p.1.hiding_bound = some d → p.2.1.natDegree ≤ s ∧ p.2.2.natDegree ≤ s)
    {crs : List (LabeledCommitment G1 × Randomness F)} (hc : pcCommit ck ps = .ok crs) (ξ : F)
    (qs : List (String × F)) (values : String → F → Option F)
    (hv : ∀ l z, (l, z) ∈ qs → ∀ p, lookupLast LabeledPolynomial.label (ps.map (·.1)) l = some p →
      values l z = some (p.polynomial.eval z))
    {proofs : List (Proof F G1)} (ho : batchOpen ck (ps.map (·.1)) qs ξ (crs.map (·.2)) = .ok proofs) :
    batchCheck e vk (crs.map (·.1)) qs values proofs ξ = .ok true := by
  obtain ⟨_, rfl, rfl⟩ := setup_trim ht
  obtain ⟨ts, e1, e2, e3, hts⟩ := pcCommit_commits hdrawn hc
  rw [e1] at ho hv
  rw [e3] at ho
  rw [e2]
  exact batch_check e ts hts values qs hv ho

/-- One blinded polynomial queried at two points: committing and opening succeed, and the batch check
accepts. -/
example : ∃ (crs : List (LabeledCommitment F17 × Randomness F17)) (proofs : List (Proof F17 F17)),
    pcCommit (⟨pows (2 : F17) (1 : F17) 4, pows (2 : F17) 3 4, 3⟩) [(⟨"y", X ^ 2, none, some 1⟩, X, 0)] = .ok crs ∧
    batchOpen (⟨pows (2 : F17) (1 : F17) 4, pows (2 : F17) 3 4, 3⟩) [⟨"y", X ^ 2, none, some 1⟩]
      [("y", 5), ("y", 4)] 6 (crs.map (·.2)) = .ok proofs ∧
    batchCheck Ex17.e ⟨1, 3, 1, (2 : F17) • (1 : F17), 3⟩ (crs.map (·.1)) [("y", 5), ("y", 4)]
      (fun _ z => some (z ^ 2)) proofs 6 = .ok true := by
  have ht := setup_trim_spec (N := 4) (s := 3) (by norm_num) (2 : F17) (1 : F17) (3 : F17) (1 : F17)
  obtain ⟨crs, h1⟩ := C38_list_success ht [(⟨"y", X ^ 2, none, some 1⟩, X, 0)] (by simp)
  have hlen : ∃ cr, crs = [cr] := by
    unfold pcCommit at h1
    rw [mapM_ok] at h1
    cases h1 with
    | cons _ h => cases h; exact ⟨_, rfl⟩
  obtain ⟨cr, rfl⟩ := hlen
  let p : LabeledPolynomial F17 := ⟨"y", X ^ 2, none, some 1⟩
  obtain ⟨p1, o1⟩ := C38_open_success ht p rfl (by simp [p]) (by simp [p]) 5 6 cr.2
  obtain ⟨p2, o2⟩ := C38_open_success ht p rfl (by simp [p]) (by simp [p]) 4 6 cr.2
  have hg : groups [("y", (5 : F17)), ("y", 4)] = [(5, ["y"]), (4, ["y"])] := by decide
  have hl : lookupLast (fun pr : LabeledPolynomial F17 × Randomness F17 => pr.1.label) [(p, cr.2)] "y"
      = some (p, cr.2) := by
    simp [lookupLast, p]
  have ho : batchOpen (⟨pows (2 : F17) (1 : F17) 4, pows (2 : F17) 3 4, 3⟩) [p]
      [("y", 5), ("y", 4)] 6 ([cr].map (·.2)) = .ok [p1, p2] := by
    unfold batchOpen
    rw [hg, mapM_ok]
    refine .cons ?_ (.cons ?_ .nil)
    · simp only [openGroup, List.map_cons, List.map_nil, List.zip_cons_cons, List.zip_nil_right, List.mapM_cons,
        List.mapM_nil, hl, orMissing, bind, Except.bind, pure, Except.pure]
      exact o1
    · simp only [openGroup, List.map_cons, List.map_nil, List.zip_cons_cons, List.zip_nil_right, List.mapM_cons,
        List.mapM_nil, hl, orMissing, bind, Except.bind, pure, Except.pure]
      exact o2
  refine ⟨[cr], [p1, p2], h1, ho, ?_⟩
  refine C38_batch_partial Ex17.e ht _ (by simp) h1 6 _ _ ?_ ho
  intro l z _ q hq
  have : q = p := by
    have := lookupLast_mem hq
    simpa [p] using this
  subst this
  simp [p]

/-! ## C39: a point has one value -/

/-- Two accepted openings of one commitment at one point with equal blinding values: the difference of
the claimed values, times `g`, is `β − z` times the difference of the witnesses. -/
theorem C39_relation (e : G1 →ₗ[F] G2 →ₗ[F] GT) {vk : VerifierKey G1 G2} {β : F} (hβ : vk.beta_h = β • vk.h)
    (hnd : ∀ x, e x vk.h = 0 → x = 0) {comm : G1} {z v v' : F} {w w' : G1} {ρ : Option F}
    (h1 : check e vk comm z v ⟨w, ρ⟩ = true) (h2 : check e vk comm z v' ⟨w', ρ⟩ = true) :
    (v - v') • vk.g = (β - z) • (w' - w) := by
  unfold check at h1 h2
  rw [decide_eq_true_eq] at h1 h2
  rw [hβ, ← sub_smul] at h1 h2
  have h3 : checkLhs vk comm v ⟨w, ρ⟩ = (β - z) • w := by
    apply sub_eq_zero.mp
    apply hnd
    rw [map_sub, LinearMap.sub_apply, h1]
    simp
  have h4 : checkLhs vk comm v' ⟨w', ρ⟩ = (β - z) • w' := by
    apply sub_eq_zero.mp
    apply hnd
    rw [map_sub, LinearMap.sub_apply, h2]
    simp
  have h5 : checkLhs vk comm v' ⟨w', ρ⟩ - checkLhs vk comm v ⟨w, ρ⟩ = (v - v') • vk.g := by
    unfold checkLhs
    cases ρ <;> (dsimp only; module)
  rw [← h5, h3, h4]; module

/-- So two different values give `g/(β − z)`: the solution of a strong Diffie-Hellman challenge, computed
from the two openings alone. -/
theorem C39_two_values (e : G1 →ₗ[F] G2 →ₗ[F] GT) {vk : VerifierKey G1 G2} {β : F} (hβ : vk.beta_h = β • vk.h)
    (hnd : ∀ x, e x vk.h = 0 → x = 0) (hg : vk.g ≠ 0) {comm : G1} {z v v' : F} {w w' : G1} {ρ : Option F}
    (h1 : check e vk comm z v ⟨w, ρ⟩ = true) (h2 : check e vk comm z v' ⟨w', ρ⟩ = true) (hne : v ≠ v') :
    β ≠ z ∧ (v - v')⁻¹ • (w' - w) = (β - z)⁻¹ • vk.g := by
  have h := C39_relation e hβ hnd h1 h2
  have hv : v - v' ≠ 0 := sub_ne_zero.mpr hne
  have hz : β - z ≠ 0 := by
    intro h0
    rw [h0, zero_smul, smul_eq_zero] at h
    rcases h with h | h
    · exact hv h
    · exact hg h
  refine ⟨fun h0 => hz (by rw [h0, sub_self]), ?_⟩
  have h3 : w' - w = (β - z)⁻¹ • (v - v') • vk.g := by
    rw [h, ← mul_smul, inv_mul_cancel₀ hz, one_smul]
  rw [h3, ← mul_smul, ← mul_smul]
  congr 1
  field_simp

/-- With the trapdoor 2 the commitment 7 opens at 5 to 1 (witness 15) and to 4 (witness 16). -/
example := C39_two_values Ex17.e (vk := ⟨(1 : F17), 3, 1, 2, 3⟩) (β := 2) (by decide)
  (by intro x h; simpa [Ex17.e] using h) (by decide) (comm := 7) (z := 5) (v := 1) (v' := 4) (w := 15) (w' := 16)
  (ρ := none) (by decide) (by decide) (by decide)

/-- For each claimed value and blinding value exactly one witness is accepted. -/
theorem C39_unique_witness (e : G1 →ₗ[F] G2 →ₗ[F] GT) {vk : VerifierKey G1 G2} {β : F}
    (hβ : vk.beta_h = β • vk.h) (hnd : ∀ x, e x vk.h = 0 → x = 0) {z : F} (hz : β ≠ z) (comm : G1) (v : F)
    (ρ : Option F) : ∃! w, check e vk comm z v ⟨w, ρ⟩ = true := by
  have hz' : β - z ≠ 0 := sub_ne_zero.mpr hz
  refine ⟨(β - z)⁻¹ • checkLhs vk comm v ⟨0, ρ⟩, ?_, ?_⟩
  · dsimp only
    unfold check
    rw [decide_eq_true_eq, hβ, ← sub_smul]
    have : checkLhs vk comm v ⟨(β - z)⁻¹ • checkLhs vk comm v ⟨0, ρ⟩, ρ⟩ = checkLhs vk comm v ⟨0, ρ⟩ := by
      unfold checkLhs; cases ρ <;> rfl
    rw [this]
    simp only [map_smul, LinearMap.smul_apply, ← mul_smul, mul_inv_cancel₀ hz', one_smul]
  · intro w hw
    unfold check at hw
    rw [decide_eq_true_eq, hβ, ← sub_smul] at hw
    have h3 : checkLhs vk comm v ⟨w, ρ⟩ = (β - z) • w := by
      apply sub_eq_zero.mp
      apply hnd
      rw [map_sub, LinearMap.sub_apply, hw]
      simp
    have : checkLhs vk comm v ⟨w, ρ⟩ = checkLhs vk comm v ⟨0, ρ⟩ := by
      unfold checkLhs; cases ρ <;> rfl
    rw [← this, h3, ← mul_smul, inv_mul_cancel₀ hz', one_smul]

example := C39_unique_witness Ex17.e (vk := ⟨(1 : F17), 3, 1, 2, 3⟩) (β := 2) (by decide)
  (by intro x h; simpa [Ex17.e] using h) (z := 5) (by decide) 7 4 (some 3)

end Zkp.Kzg
