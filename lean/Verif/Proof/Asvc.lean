/- Proofs about the vector-commitment model. -/
import Verif.Model.Asvc
import Verif.Proof.Domain
import Verif.Proof.BulletproofsComplete
import Mathlib.Tactic.FieldSimp
import Mathlib.Tactic.Module

set_option linter.unusedSectionVars false
set_option linter.unusedSimpArgs false

namespace Zkp

open Polynomial

section
variable {F : Type} [Field F] {G : Type} [AddCommGroup G] [Module F G]

theorem coeffs_getD (p : F[X]) (i : Nat) : (coeffs p).getD i 0 = p.coeff i := by
  unfold coeffs
  by_cases h : i < p.natDegree + 1
  · rw [List.getD_eq_getElem _ _ (by simpa using h)]; simp
  · rw [List.getD_eq_default _ _ (by simp; omega), coeff_eq_zero_of_natDegree_lt (by omega)]

@[simp] theorem coeffs_length (p : F[X]) : (coeffs p).length = p.natDegree + 1 := by simp [coeffs]

/-- Committing to a polynomial under the powers of `τ` gives its value at `τ`, if it fits. -/
theorem msm_powers_coeffs (τ : F) (g : G) (n : Nat) (p : F[X]) (h : p.natDegree < n) :
    msm ((List.range n).map fun i => τ ^ i • g) (coeffs p) = p.eval τ • g := by
  rw [Bp.msm_eq_sum _ _ (p.natDegree + 1) (by simp), eval_eq_sum_range, Finset.sum_smul]
  apply Finset.sum_congr rfl
  intro i hi
  have hi' := Finset.mem_range.mp hi
  rw [coeffs_getD, List.getD_eq_getElem _ _ (by simp; omega)]
  simp [mul_smul]

theorem natDegree_lt_of_degree_lt {p : F[X]} {n : Nat} (hn : 0 < n) (h : p.degree < n) :
    p.natDegree < n := by
  by_cases hp : p = 0
  · subst hp; simpa using hn
  · exact (natDegree_lt_iff_degree_lt hp).mpr h

end

namespace Asvc

variable {F : Type} [Field F] [DecidableEq F]
variable {G1 G2 GT : Type} [AddCommGroup G1] [AddCommGroup G2] [AddCommGroup GT]
  [Module F G1] [Module F G2] [Module F GT]

/-- Lagrange coefficients in closed form. -/
theorem lagrange_closed {D : Domain F} (h : D.Valid) {τ : F} {i : Nat} (hi : i < D.size)
    (hτ : τ - D.ω ^ i ≠ 0) :
    (D.lagrange τ).getD i 0 = D.ω ^ i / D.size * (1 / (τ - D.ω ^ i)) * (τ ^ D.size - 1) := by
  rw [Domain.lagrange_getD _ hi]
  have hw : D.ω ^ i ≠ 0 := pow_ne_zero _ h.ω_ne
  have hg := geom_sum_mul (τ * (D.ω⁻¹) ^ i) D.size
  have hp : (τ * (D.ω⁻¹) ^ i) ^ D.size = τ ^ D.size := by
    rw [mul_pow, ← pow_mul, Nat.mul_comm i, pow_mul, inv_pow, h.ω_pow]; simp
  rw [hp] at hg
  have hs := h.size_ne
  have h1 : τ * (D.ω⁻¹) ^ i - 1 = (τ - D.ω ^ i) / D.ω ^ i := by
    rw [inv_pow]; field_simp
  rw [h1] at hg
  generalize ∑ j ∈ Finset.range D.size, (τ * (D.ω⁻¹) ^ i) ^ j = S at *
  rw [← hg]
  field_simp

theorem keyLi_eq {D : Domain F} (h : D.Valid) {τ : F} {i : Nat} (hi : i < D.size)
    (hτ : τ - D.ω ^ i ≠ 0) (g1 : G1) : keyLi τ D g1 i = (D.lagrange τ).getD i 0 • g1 := by
  rw [lagrange_closed h hi hτ]
  unfold keyLi keyAi keyA
  module

/-- The commitment is the value at `τ` of the interpolation polynomial. -/
theorem msm_keyLi {D : Domain F} (h : D.Valid) {τ : F} (hτ : ∀ i < D.size, τ - D.ω ^ i ≠ 0) (g1 : G1)
    (values : List F) (hv : values.length ≤ D.size) :
    msm ((List.range D.size).map (keyLi τ D g1)) values = (polyOf (D.ifft values)).eval τ • g1 := by
  rw [Bp.msm_eq_sum _ _ D.size hv, Domain.eval_ifft, Finset.sum_smul]
  apply Finset.sum_congr rfl
  intro i hi
  have hi' := Finset.mem_range.mp hi
  rw [List.getD_eq_getElem (List.map (keyLi τ D g1) (List.range D.size)) _ (by simpa using hi')]
  simp only [List.getElem_map, List.getElem_range]
  rw [keyLi_eq h hi' (hτ i hi'), smul_smul]

/-! ### The product and interpolation polynomials -/

/-- The domain points of a set of positions. -/
abbrev nodes (ω : F) : Nat → F := fun i => ω ^ i

theorem aPoly_eq_prod (ω : F) (points : List Nat) : aPoly ω points = (points.map (lin ω)).prod := by
  have : ∀ (p : F[X]), points.foldl (fun p i => p * lin ω i) p = p * (points.map (lin ω)).prod := by
    induction points with
    | nil => intro p; simp
    | cons i l ih => intro p; simp only [List.foldl_cons, List.map_cons, List.prod_cons]; rw [ih, mul_assoc]
  unfold aPoly; rw [this, one_mul]

theorem aPoly_eq_nodal (ω : F) (points : List Nat) (h : points.Nodup) :
    aPoly ω points = Lagrange.nodal points.toFinset (nodes ω) := by
  rw [aPoly_eq_prod, Lagrange.nodal_eq, List.prod_toFinset _ h]; rfl

theorem aPoly_div (ω : F) (points : List Nat) (h : points.Nodup) {i : Nat} (hi : i ∈ points) :
    aPoly ω points / lin ω i = Lagrange.nodal (points.toFinset.erase i) (nodes ω) := by
  rw [aPoly_eq_nodal ω points h, Lagrange.nodal_erase_eq_nodal_div (List.mem_toFinset.mpr hi)]; rfl

theorem injOn {D : Domain F} (h : D.Valid) (points : List Nat) (hp : ∀ i ∈ points, i < D.size) :
    Set.InjOn (nodes D.ω) (points.toFinset : Set Nat) := by
  intro i hi j hj he
  exact h.inj (hp i (by simpa using hi)) (hp j (by simpa using hj)) he

theorem weight (ω : F) (points : List Nat) (h : points.Nodup) {i : Nat} (hi : i ∈ points) :
    ((aPoly ω points / lin ω i).eval (ω ^ i))⁻¹ =
      Lagrange.nodalWeight points.toFinset (nodes ω) i := by
  rw [aPoly_div ω points h hi, Lagrange.nodalWeight_eq_eval_nodal_erase_inv]

theorem b_ne (ω : F) (points : List Nat) (h : points.Nodup)
    (inj : Set.InjOn (nodes ω) (points.toFinset : Set Nat)) {i : Nat} (hi : i ∈ points) :
    (aPoly ω points / lin ω i).eval (ω ^ i) ≠ 0 := by
  intro h0
  have := Lagrange.nodalWeight_ne_zero inj (List.mem_toFinset.mpr hi)
  rw [← weight ω points h hi, h0, inv_zero] at this
  exact this rfl

/-- The summand added by one iteration of the interpolation loop. -/
noncomputable def rTerm (ω : F) (a : F[X]) (pv : Nat × F) : F[X] :=
  (a / lin ω pv.1) * C (pv.2 / (a / lin ω pv.1).eval (ω ^ pv.1))

theorem rFold (ω : F) (a : F[X]) (l : List (Nat × F)) (r : F[X])
    (h : ∀ pv ∈ l, (a / lin ω pv.1).eval (ω ^ pv.1) ≠ 0) :
    l.foldlM (rStep ω a) r = .ok (r + (l.map (rTerm ω a)).sum) := by
  induction l generalizing r with
  | nil => simp; rfl
  | cons x l ih =>
    rw [List.foldlM_cons]
    have : rStep ω a r x = .ok (r + rTerm ω a x) := by
      unfold rStep
      simp only [h x (by simp), if_false]; rfl
    rw [this]
    show l.foldlM (rStep ω a) (r + rTerm ω a x) = _
    rw [ih _ (fun pv hpv => h pv (by simp [hpv]))]
    simp [add_assoc]

/-- Sum over zipped lists as a sum over positions; missing values count as zero. -/
theorem zip_sum {M V : Type} [AddCommMonoid M] [Zero V] (t : Nat × V → M) (ht : ∀ i, t (i, 0) = 0)
    (points : List Nat) (h : points.Nodup) (values : List V) :
    ((points.zip values).map t).sum =
      (points.map fun i => t (i, values.getD (points.idxOf i) 0)).sum := by
  induction points generalizing values with
  | nil => simp
  | cons p ps ih =>
    have hps := List.nodup_cons.mp h
    cases values with
    | nil => simp [ht]
    | cons v vs =>
      simp only [List.zip_cons_cons, List.map_cons, List.sum_cons, List.idxOf_cons_self,
        List.getD_cons_zero]
      congr 1
      rw [ih hps.2 vs]
      congr 1
      apply List.map_congr_left
      intro i hi
      have : p ≠ i := by rintro rfl; exact hps.1 hi
      rw [List.idxOf_cons_ne _ this, List.getD_cons_succ]

/-- The verifier's polynomial interpolates the claimed values. -/
theorem rPoly_eq (ω : F) (points : List Nat) (h : points.Nodup)
    (inj : Set.InjOn (nodes ω) (points.toFinset : Set Nat)) (values : List F) :
    rPoly ω points values = .ok (Lagrange.interpolate points.toFinset (nodes ω)
      fun i => values.getD (points.idxOf i) 0) := by
  unfold rPoly
  rw [rFold]
  · congr 1
    rw [zero_add, zip_sum _ (by intro i; simp [rTerm]) points h values, ← List.sum_toFinset _ h,
      Lagrange.interpolate_eq_nodalWeight_mul_nodal_div_X_sub_C]
    apply Finset.sum_congr rfl
    intro i hi
    have hi' := List.mem_toFinset.mp hi
    unfold rTerm
    dsimp only
    rw [div_eq_mul_inv, weight ω points h hi', C_mul, ← aPoly_eq_nodal ω points h]
    show aPoly ω points / lin ω i * _ = _ * (aPoly ω points / lin ω i) * _
    ring
  · intro pv hpv
    exact b_ne ω points h inj (List.of_mem_zip hpv).1

theorem idxOf_getD {V : Type} (points : List Nat) (f : Nat → V) (d : V) {i : Nat} (hi : i ∈ points) :
    (points.map f).getD (points.idxOf i) d = f i := by
  have := List.idxOf_lt_length_of_mem hi
  rw [List.getD_eq_getElem _ _ (by simpa using this)]
  simp

theorem card_le {D : Domain F} (points : List Nat) (h : points.Nodup) (hp : ∀ i ∈ points, i < D.size) :
    points.toFinset.card ≤ D.size := by
  have : points.toFinset ⊆ Finset.range D.size := by
    intro i hi; exact Finset.mem_range.mpr (hp i (by simpa using hi))
  simpa using Finset.card_le_card this

/-- What `keyGen` returns. -/
theorem keyGen_ok {mk : Nat → Option (Domain F)} {n : Nat} {τ : F} {g1 : G1} {g2 : G2}
    {P : Parameters G1 G2} (h : keyGen mk n τ g1 g2 = .ok P) :
    ∃ D, mk n = some D ∧ (∀ i < D.size, τ - D.ω ^ i ≠ 0) ∧
      P.pk.powers_of_g1 = (List.range (D.size + 1)).map (fun i => τ ^ i • g1) ∧
      P.vk.powers_of_g1 = (List.range (D.size + 1)).map (fun i => τ ^ i • g1) ∧
      P.vk.powers_of_g2 = (List.range (D.size + 1)).map (fun i => τ ^ i • g2) ∧
      P.pk.l_of_g1 = (List.range D.size).map (keyLi τ D g1) ∧
      P.pk.update_keys = (List.range D.size).map (fun i => ⟨keyAi τ D g1 i, keyUi τ D g1 i⟩) ∧
      P.vk.a = keyA τ D.size g1 := by
  unfold keyGen at h
  cases hm : mk n with
  | none => rw [hm] at h; simp at h
  | some D =>
    rw [hm] at h
    dsimp only at h
    split at h
    · simp at h
    · rename_i hc
      injection h with h
      subst h
      refine ⟨D, rfl, ?_, ?_⟩
      · intro i hi h0
        apply hc
        simp only [List.any_eq_true, List.mem_range]
        exact ⟨i, hi, by simp [h0]⟩
      · simp [powers, List.map_map, Function.comp_def]

/-- `keyGen` succeeds unless the trapdoor is a domain point. -/
theorem keyGen_succeeds {mk : Nat → Option (Domain F)} {n : Nat} {τ : F} (g1 : G1) (g2 : G2)
    {D : Domain F} (hm : mk n = some D) (hv : D.Valid) (hτ : ∀ i < D.size, τ ≠ D.ω ^ i) :
    ∃ P, keyGen mk n τ g1 g2 = .ok P := by
  unfold keyGen
  rw [hm]
  dsimp only
  rw [if_neg]
  · exact ⟨_, rfl⟩
  · simp only [List.any_eq_true, List.mem_range, Bool.or_eq_true, decide_eq_true_eq, not_exists,
      not_and, not_or]
    intro i hi
    exact ⟨sub_ne_zero.mpr (hτ i hi), hv.size_ne⟩

/-- Honest openings, in terms of polynomials: the quotient of `P` by the product polynomial. -/
theorem quotient {D : Domain F} (hv : D.Valid) (points : List Nat) (h : points.Nodup)
    (hp : ∀ i ∈ points, i < D.size) (values : List F) (τ : F) :
    (polyOf (D.ifft values)).eval τ -
      (Lagrange.interpolate points.toFinset (nodes D.ω) fun i => values.getD i 0).eval τ =
      (aPoly D.ω points).eval τ * (polyOf (D.ifft values) / aPoly D.ω points).eval τ := by
  have inj := injOn hv points hp
  set P := polyOf (D.ifft values)
  set A := aPoly D.ω points with hA
  have hAn : A = Lagrange.nodal points.toFinset (nodes D.ω) := aPoly_eq_nodal _ _ h
  have hA0 : A ≠ 0 := by rw [hAn]; exact Lagrange.nodal_ne_zero
  have hr : P % A = Lagrange.interpolate points.toFinset (nodes D.ω) fun i => values.getD i 0 := by
    apply Lagrange.eq_interpolate_of_eval_eq _ inj
    · have := degree_mod_lt P hA0
      rwa [hAn, Lagrange.degree_nodal, ← hAn] at this
    · intro i hi
      have h1 := EuclideanDomain.div_add_mod P A
      have h2 : P.eval (D.ω ^ i) = values.getD i 0 :=
        hv.eval_ifft_element values (hp i (by simpa using hi))
      have h3 : A.eval (D.ω ^ i) = 0 := by rw [hAn]; exact Lagrange.eval_nodal_at_node (v := nodes D.ω) hi
      rw [← h1] at h2
      simp only [eval_add, eval_mul, h3, zero_mul, zero_add] at h2
      exact h2
  rw [← hr]
  have h1 := EuclideanDomain.div_add_mod P A
  have h2 := congrArg (Polynomial.eval τ) h1
  simp only [eval_add, eval_mul] at h2
  rw [← h2]; ring

theorem interpolate_congr_values (ω : F) (points : List Nat) (f : Nat → F) :
    (Lagrange.interpolate points.toFinset (nodes ω)
      fun i => (points.map f).getD (points.idxOf i) 0) =
    Lagrange.interpolate points.toFinset (nodes ω) f := by
  apply Lagrange.interpolate_eq_of_values_eq_on
  intro i hi
  exact idxOf_getD points f 0 (by simpa using hi)

/-- The verdict on distinct in-range positions under an honest key, for arbitrary claimed values and
witness. -/
theorem verifyPos_eq [DecidableEq GT] (e : G1 →ₗ[F] G2 →ₗ[F] GT) {D : Domain F} (hv : D.Valid)
    {τ : F} {g1 : G1} {g2 : G2} {vk : VerificationKey G1 G2}
    (h1 : vk.powers_of_g1 = (List.range (D.size + 1)).map (fun i => τ ^ i • g1))
    (h2 : vk.powers_of_g2 = (List.range (D.size + 1)).map (fun i => τ ^ i • g2))
    (points : List Nat) (h : points.Nodup) (hp : ∀ i ∈ points, i < D.size)
    (c : G1) (values : List F) (w : G1) :
    verifyPos e vk c values points w D.ω = .ok (decide
      (e (c - (Lagrange.interpolate points.toFinset (nodes D.ω)
        fun i => values.getD (points.idxOf i) 0).eval τ • g1) g2 =
       e w ((aPoly D.ω points).eval τ • g2))) := by
  have inj := injOn hv points hp
  have hc := card_le points h hp
  unfold verifyPos
  rw [rPoly_eq _ _ h inj]
  have hg2 : vk.powers_of_g2 = g2 :: (List.range D.size).map (fun i => τ ^ (i + 1) • g2) := by
    rw [h2, List.range_succ_eq_map]; simp [Function.comp_def]
  show (match vk.powers_of_g2 with | [] => _ | g2 :: _ => _) = _
  have hA : msm vk.powers_of_g2 (coeffs (aPoly D.ω points)) = (aPoly D.ω points).eval τ • g2 := by
    rw [h2, msm_powers_coeffs]
    rw [aPoly_eq_nodal _ _ h, Lagrange.natDegree_nodal]; omega
  have hR : msm vk.powers_of_g1 (coeffs (Lagrange.interpolate points.toFinset (nodes D.ω)
        fun i => values.getD (points.idxOf i) 0)) =
        (Lagrange.interpolate points.toFinset (nodes D.ω)
        fun i => values.getD (points.idxOf i) 0).eval τ • g1 := by
    rw [h1, msm_powers_coeffs]
    apply natDegree_lt_of_degree_lt (by omega)
    refine lt_of_lt_of_le (Lagrange.degree_interpolate_lt _ inj) ?_
    exact_mod_cast (by omega : points.toFinset.card ≤ D.size + 1)
  rw [hA, hR, hg2]

/-- What `provePos` returns under an honest key. -/
theorem provePos_eq {mk : Nat → Option (Domain F)} {D : Domain F} (hv : D.Valid)
    (hm : mk D.size = some D) {τ : F} {g1 : G1} {pk : ProvingKey G1}
    (h1 : pk.powers_of_g1 = (List.range (D.size + 1)).map (fun i => τ ^ i • g1))
    (values : List F) (points : List Nat) (h : points.Nodup) :
    provePos mk pk values points =
      .ok ((polyOf (D.ifft values) / aPoly D.ω points).eval τ • g1) := by
  have hm' : mk (pk.powers_of_g1.length - 1) = some D := by rw [h1]; simpa using hm
  have hl : pk.powers_of_g1.length ≠ 0 := by rw [h1]; simp
  unfold provePos
  rw [if_neg hl, hm']
  dsimp only
  rw [h1, msm_powers_coeffs]
  have hP : (polyOf (D.ifft values)).natDegree < D.size := by
    apply natDegree_lt_of_degree_lt hv.pos
    have := polyOf_degree (D.ifft values)
    rwa [Domain.ifft_length] at this
  have hA : (aPoly D.ω points).Monic := by
    rw [aPoly_eq_nodal _ _ h]; exact Lagrange.nodal_monic
  rw [← divByMonic_eq_div _ hA, natDegree_divByMonic _ hA]
  omega

end Asvc

end Zkp
