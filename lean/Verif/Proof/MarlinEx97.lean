/- A circuit for which Marlin's prover outputs a proof, over the field with 97 elements. -/
import Verif.Proof.MarlinForward
import Verif.Proof.F97Family

set_option linter.unusedSectionVars false
set_option linter.unusedSimpArgs false

namespace Zkp.Marlin

open Polynomial Ex97

/-- `x·y = p` and `1·(x + y) = p - 1`, with `x = 2`, `y = 3` and the public input `p = 6`. -/
def cs97 : CS F97 :=
  ⟨true, [1, 6], [2, 3], [⟨[(.aux 0, 1)], [(.aux 1, 1)], [(.input 1, 1)]⟩,
    ⟨[(.input 0, 1)], [(.aux 0, 1), (.aux 1, 1)], [(.input 0, 96), (.input 1, 1)]⟩]⟩

theorem cs97_valid : cs97.Valid := by
  intro w hw c hc
  have h0 : w (.input 0) = 1 := hw.1 0 1 rfl
  have h1 : w (.input 1) = 6 := hw.1 1 6 rfl
  have h2 : w (.aux 0) = 2 := hw.2 0 2 rfl
  have h3 : w (.aux 1) = 3 := hw.2 1 3 rfl
  simp only [cs97, List.mem_cons, List.not_mem_nil, or_false] at hc
  rcases hc with rfl | rfl
  · simp only [R1C.Holds, LC.eval, h0, h1, h2, h3, List.map_cons, List.map_nil, List.sum_cons, List.sum_nil]
    decide
  · simp only [R1C.Holds, LC.eval, h0, h1, h2, h3, List.map_cons, List.map_nil, List.sum_cons, List.sum_nil]
    decide

def X2 : Domain F97 := ⟨2, 96, 5⟩
def H4 : Domain F97 := ⟨4, 22, 5⟩

theorem h4_valid : H4.Valid := mk97_ok.valid (n := 4) rfl
theorem x2_valid : X2.Valid := mk97_ok.valid (n := 2) rfl

/-- The coefficients of an interpolation polynomial on four points, computed. -/
def coef4 (v : List F97) (j : Nat) : F97 := 73 * (v.getD 0 0 + v.getD 1 0 * 75 ^ j + v.getD 2 0 * 75 ^ (2 * j)
  + v.getD 3 0 * 75 ^ (3 * j))

theorem coeff97 (v : List F97) {j : Nat} (hj : j < 4) : (interpolate H4 v).coeff j = coef4 v j := by
  unfold interpolate
  rw [polyOf_coeff]
  unfold Domain.ifft
  have e1 : ((H4.size : Nat) : F97)⁻¹ = 73 := inv_eq_of_mul_eq_one_right (by decide)
  have e2 : H4.ω⁻¹ = 75 := inv_eq_of_mul_eq_one_right (by decide)
  rw [e1, e2]
  have hs : H4.size = 4 := rfl
  rw [hs, List.getD_eq_getElem _ _ (by simpa using hj)]
  simp only [List.getElem_map, List.getElem_range, Finset.sum_range_succ, Finset.sum_range_zero, coef4]
  simp

theorem natDegree97 {v : List F97} {j : Nat} (h1 : 1 ≤ j) (hj : j < 4) (h : coef4 v j ≠ 0) :
    1 ≤ (interpolate H4 v).natDegree ∧ (interpolate H4 v).natDegree ≤ 3 :=
  ⟨h1.trans (le_natDegree_of_ne_zero (by rwa [coeff97 v hj])),
    (natDegree_le_of_degree (interpolate_degree H4 v))⟩

theorem compose97 :
    compose X2 H4 H4 ([[(1, 2)], [(1, 0)], [], []] : Matrix F97)
      = .ok (matrixPolys H4 [(22, 1, 54), (1, 22, 73), (1, 1, 0), (1, 1, 0)]) ∧
    compose X2 H4 H4 ([[(1, 3)], [(1, 2), (1, 3)], [], []] : Matrix F97)
      = .ok (matrixPolys H4 [(75, 1, 43), (22, 22, 54), (75, 22, 43), (1, 1, 0)]) ∧
    compose X2 H4 H4 ([[(1, 1)], [(96, 0), (1, 1)], [], []] : Matrix F97)
      = .ok (matrixPolys H4 [(96, 1, 24), (1, 22, 24), (96, 22, 24), (1, 1, 0)]) := by
  have i0 : (diagonal H4 0)⁻¹ = 73 := inv_eq_of_mul_eq_one_right (by decide)
  have i1 : (diagonal H4 1)⁻¹ = 54 := inv_eq_of_mul_eq_one_right (by decide)
  have i2 : (diagonal H4 2)⁻¹ = 24 := inv_eq_of_mul_eq_one_right (by decide)
  have i3 : (diagonal H4 3)⁻¹ = 43 := inv_eq_of_mul_eq_one_right (by decide)
  have c02 : composeEntry H4 X2 0 ((1 : F97), 2) = .ok (22, 1, 1 * (diagonal H4 1)⁻¹) := by rfl
  have c10 : composeEntry H4 X2 1 ((1 : F97), 0) = .ok (1, 22, 1 * (diagonal H4 0)⁻¹) := by rfl
  have c03 : composeEntry H4 X2 0 ((1 : F97), 3) = .ok (75, 1, 1 * (diagonal H4 3)⁻¹) := by rfl
  have c12 : composeEntry H4 X2 1 ((1 : F97), 2) = .ok (22, 22, 1 * (diagonal H4 1)⁻¹) := by rfl
  have c13 : composeEntry H4 X2 1 ((1 : F97), 3) = .ok (75, 22, 1 * (diagonal H4 3)⁻¹) := by rfl
  have c01 : composeEntry H4 X2 0 ((1 : F97), 1) = .ok (96, 1, 1 * (diagonal H4 2)⁻¹) := by rfl
  have c10' : composeEntry H4 X2 1 ((96 : F97), 0) = .ok (1, 22, 96 * (diagonal H4 0)⁻¹) := by rfl
  have c11 : composeEntry H4 X2 1 ((1 : F97), 1) = .ok (96, 22, 1 * (diagonal H4 2)⁻¹) := by rfl
  rw [i1, one_mul] at c02 c12
  rw [i0, one_mul] at c10
  rw [i0, show (96 : F97) * 73 = 24 by decide] at c10'
  rw [i3, one_mul] at c03 c13
  rw [i2, one_mul] at c01 c11
  refine ⟨?_, ?_, ?_⟩ <;> unfold compose
  · simp only [composeEntries, List.mapM_cons, List.mapM_nil, c02, c10, bind, Except.bind, pure, Except.pure]
    rfl
  · simp only [composeEntries, List.mapM_cons, List.mapM_nil, c03, c12, c13, bind, Except.bind, pure, Except.pure]
    rfl
  · simp only [composeEntries, List.mapM_cons, List.mapM_nil, c01, c10', c11, bind, Except.bind, pure, Except.pure]
    rfl

/-- The index. -/
noncomputable def ix97 : IndexData F97 :=
  ⟨⟨4, 4, 3⟩, [[(1, 2)], [(1, 0)], [], []], [[(1, 3)], [(1, 2), (1, 3)], [], []],
    [[(1, 1)], [(96, 0), (1, 1)], [], []],
    matrixPolys H4 [(22, 1, 54), (1, 22, 73), (1, 1, 0), (1, 1, 0)],
    matrixPolys H4 [(75, 1, 43), (22, 22, 54), (75, 22, 43), (1, 1, 0)],
    matrixPolys H4 [(96, 1, 24), (1, 22, 24), (96, 22, 24), (1, 1, 0)]⟩

theorem ahp97 (checked : Bool) : ahpIndex checked mk97 cs97 = .ok ix97 := by
  have hp : (Ics.of cs97).makeSquare.process checked
      = .ok ([[(1, 2)], [(1, 0)], [], []], [[(1, 3)], [(1, 2), (1, 3)], [], []],
          [[(1, 1)], [(96, 0), (1, 1)], [], []]) := by
    cases checked <;> rfl
  obtain ⟨h1, h2, h3⟩ := compose97
  unfold ahpIndex
  dsimp only
  rw [hp]
  simp only [liftSyn, bind, Except.bind]
  have e1 : domain mk97 (Ics.of cs97).makeSquare.numInputs = .ok X2 := by rfl
  have e2 : domain mk97 ((Ics.of cs97).makeSquare.numInputs + (Ics.of cs97).makeSquare.numWitness)
      = .ok H4 := by rfl
  have e3 : domain mk97 (numNonZeros (([[(1, 2)], [(1, 0)], [], []], [[(1, 3)], [(1, 2), (1, 3)], [], []],
          [[(1, 1)], [(96, 0), (1, 1)], [], []]) : Matrix F97 × Matrix F97 × Matrix F97)) = .ok H4 := by rfl
  have e4 : domain mk97 (3 * H4.size - 3) = .ok ⟨16, 8, 5⟩ := by rfl
  rw [e1, e2, e3]
  dsimp only
  rw [if_neg (by decide), e4]
  dsimp only
  rw [h1, h2, h3]
  rfl

theorem ix97_degrees : ∀ q ∈ ix97.polys, (1 ≤ q.polynomial.natDegree ∧ q.polynomial.natDegree ≤ 3) ∧
    q.degree_bound = none ∧ q.hiding_bound = none := by
  intro q hq
  simp only [IndexData.polys, ix97, matrixPolys, List.map_cons, List.map_nil, List.mem_cons,
    List.not_mem_nil, or_false] at hq
  rcases hq with rfl | rfl | rfl | rfl | rfl | rfl | rfl | rfl | rfl | rfl | rfl | rfl <;>
    first
      | exact ⟨natDegree97 (j := 3) (by decide) (by decide) (by decide +kernel), rfl, rfl⟩
      | exact ⟨natDegree97 (j := 2) (by decide) (by decide) (by decide +kernel), rfl, rfl⟩

theorem index97 (checked : Bool) (τ g γ h : F97) : ∃ ipk ivk,
    index checked mk97 (Kzg.setup 13 τ g γ h) cs97 = .ok (ipk, ivk) ∧ ipk.index = ix97 ∧
      ivk.info = ⟨4, 4, 3⟩ ∧ ipk.index_verifier_key = ivk ∧
      ipk.committer_key = ⟨Kzg.pows τ g 14, Kzg.pows τ γ 14, 13⟩ := by
  have ht := Kzg.setup_trim_spec (N := 13) (s := 13) le_rfl τ g γ h
  obtain ⟨crs, hc⟩ := Kzg.C38_list_success ht (ix97.polys.map fun p => (p, 0, 0)) (by
    intro p hp
    obtain ⟨q, hq, rfl⟩ := List.mem_map.mp hp
    obtain ⟨⟨h1, h2⟩, h3, h4⟩ := ix97_degrees q hq
    refine ⟨h1, h2.trans (by decide), ?_, ?_⟩
    · intro d hd; dsimp only at hd; rw [h3] at hd; cases hd
    · intro d hd; dsimp only at hd; rw [h4] at hd; cases hd)
  have hd : maxDegree mk97 ix97.info = .ok 13 := by rfl
  have hl : ¬ (Kzg.setup 13 τ g γ h).powers_of_g.length - 1 < 13 := by simp [Kzg.setup]
  unfold index
  rw [ahp97]
  simp only [bind, Except.bind, hd, if_neg hl, ht, liftPc, hc]
  exact ⟨_, _, rfl, rfl, rfl, rfl, rfl⟩

/-! ### The rounds -/

def s97 : PState F97 := ⟨[1, 6], [2, 3], [2, 1, 0, 0], [3, 5, 0, 0], X2, H4, H4⟩

theorem init97 : proverInit mk97 ix97 cs97 = .ok s97 := by rfl

noncomputable def coins97 : Coins F97 := ⟨1, 1, 1, X, fun _ => (X, X)⟩

def rng97 : FsRng F97 F97 F97 :=
  ⟨fun h k => if h.length = 2 then ([5, 7, 11, 13] : List F97).getD k 5 else if h.length = 3 then 17 else 19,
    fun _ => 1⟩

def m97 : FirstMsg F97 := ⟨5, 7, 11, 13⟩

/-- What is needed about the first round. -/
structure First97 (o : FirstOracles F97) : Prop where
  run : firstRound s97 coins97 = .ok o
  za : o.za = interpolate H4 [2, 1, 0, 0] + C 1 * (X ^ H4.size - 1)
  zb : o.zb = interpolate H4 [3, 5, 0, 0] + C 1 * (X ^ H4.size - 1)
  mask : o.mask = X
  w0 : o.w ≠ 0
  w : o.w.natDegree = 2
  z : ∀ i < 4, (o.w * (X ^ X2.size - 1) + interpolate X2 [1, 6]).eval (H4.ω ^ i) = ([1, 2, 6, 3] : List F97).getD i 0

theorem first97 : ∃ o, First97 o := by
  obtain ⟨p, hp⟩ := MkOk.isSub mk97_ok (n := 2) (m := 4) (D := X2) (H := H4) rfl rfl (by decide)
  have h2 : p = 2 := by
    have := hp.size
    change 4 = 2 * p at this
    omega
  subst h2
  obtain ⟨o, h1, h2, h3, h4, h5, h6⟩ := first_exists (s := s97) (c := coins97) hp (by decide) (by
    change (X : F97[X]).degree < ((4 : Nat) : WithBot ℕ)
    rw [degree_X]
    decide) X_ne_zero
  obtain ⟨h7, h8⟩ := h5 (by change (1 : F97) ≠ 0; decide)
  refine ⟨o, h1, h2, h3, ?_, h7, ?_, ?_⟩
  · rw [h4]
    change (X : F97[X]) - C ((X : F97[X]).coeff 0) = X
    simp
  · change o.w.natDegree + 2 = 4 at h8
    omega
  · intro i hi
    have := h6 i hi
    refine this.trans ?_
    interval_cases i <;> decide

theorem batch97 : batchEvals H4 5 = [59, 66, 7, 77] := by
  have : batchEvals H4 5 = (List.range 4).map fun i => (5 - (22 : F97) ^ i) ^ 95 * ((5 : F97) ^ 4 - 1) := by
    unfold batchEvals
    simp only [inv97]
    rfl
  rw [this]
  decide +kernel

theorem tEvals97 : tEvals H4 X2 ix97 m97 [59, 66, 7, 77] = .ok [89, 72, 73, 17] := by rfl

theorem interp_list (v : List F97) (hv : v.length = 4) {p : F97[X]} (hp : p.degree < ((4 : Nat) : WithBot ℕ))
    (h : ∀ k < 4, v.getD k 0 = p.eval (H4.ω ^ k)) : interpolate H4 v = p := by
  have := interpolate_of_eval h4_valid (p := p) hp (fun k => v.getD k 0) h
  rw [← this]
  congr 1
  refine List.ext_getElem (by simp [hv]; rfl) fun i h1 h2 => ?_
  simp only [List.getElem_map, List.getElem_range, List.getD_eq_getElem _ _ h1]

theorem za_len {v : List F97} : plen (interpolate H4 v + C 1 * (X ^ H4.size - 1)) = 5 :=
  blinded_natDegree h4_valid v one_ne_zero

theorem second97 {o : FirstOracles F97} (ho : First97 o) : ∃ o2, secondRound mk97 ix97 s97 o m97 = .ok o2 ∧
    o2.t = interpolate H4 [89, 72, 73, 17] ∧ o2.g1.coeff 2 = 39 ∧ o2.g1.natDegree ≤ 2 ∧ o2.h1.natDegree = 7 := by
  have hb : batchEvals s97.H m97.alpha = [59, 66, 7, 77] := batch97
  obtain ⟨a0, a1⟩ := plen_eq (ho.za ▸ za_len : plen o.za = 4 + 1)
  obtain ⟨b0, b1⟩ := plen_eq (ho.zb ▸ za_len : plen o.zb = 4 + 1)
  have hlen : plen o.za = plen o.zb := by rw [ho.za, ho.zb, za_len, za_len]
  -- the degrees
  have hcut : ∀ (n : Nat) (p : F97[X]), n ≤ 5 → (cut n p).natDegree ≤ 4 := by
    intro n p hn
    unfold cut
    refine natDegree_sum_le_of_forall_le _ _ fun j hj => ?_
    have := Finset.mem_range.mp hj
    exact (natDegree_C_mul_X_pow_le _ _).trans (by omega)
  have hm : (mPoly m97 o.za o.zb).natDegree = 8 := by
    unfold mPoly
    have e1 : (C m97.eta_c * (o.za * o.zb)).natDegree = 8 := by
      rw [natDegree_C_mul (by decide : (m97.eta_c : F97) ≠ 0), natDegree_mul a0 b0, a1, b1]
    have hn : min (plen (o.za * o.zb)) (min (plen o.za) (plen o.zb)) ≤ 5 :=
      (min_le_right _ _).trans ((min_le_left _ _).trans (by rw [ho.za, za_len]))
    have e2 : (C m97.eta_a * cut (min (plen (o.za * o.zb)) (min (plen o.za) (plen o.zb))) o.za
        + C m97.eta_b * cut (min (plen (o.za * o.zb)) (min (plen o.za) (plen o.zb))) o.zb).natDegree ≤ 4 :=
      Kzg.natDegree_add_le' (Kzg.natDegree_C_mul_le' _ (hcut _ _ hn)) (Kzg.natDegree_C_mul_le' _ (hcut _ _ hn))
    dsimp only
    rw [natDegree_add_eq_left_of_natDegree_lt (by omega), e1]
  have hz : zOf X2 o.w (interpolate X2 [1, 6]) = o.w * (X ^ X2.size - 1) + interpolate X2 [1, 6] :=
    zOf_eq x2_valid ho.w0 _
  have hz4 : (zOf X2 o.w (interpolate X2 [1, 6])).natDegree ≤ 4 := by
    rw [hz]
    refine Kzg.natDegree_add_le' (natDegree_mul_le.trans ?_) ((natDegree_le_of_degree (interpolate_degree _ _)).trans
      (by decide))
    rw [ho.w, vanish_natDegree]
    decide
  have r3 : (interpolate H4 [59, 66, 7, 77]).natDegree = 3 :=
    le_antisymm (natDegree97 (j := 3) (by decide) (by decide) (by decide +kernel)).2
      (le_natDegree_of_ne_zero (by rw [coeff97 _ (by decide)]; decide +kernel))
  have t3 := (natDegree97 (v := [89, 72, 73, 17]) (j := 3) (by decide) (by decide) (by decide +kernel)).2
  -- the domain
  obtain ⟨E, hE⟩ := mk97_some (n := max (plen o.mask) (max (plen (interpolate s97.H (batchEvals s97.H m97.alpha))
    + plen (mPoly m97 o.za o.zb)) (plen (interpolate s97.H [89, 72, 73, 17])
    + plen (zOf X2 o.w (interpolate X2 s97.inputs))))) (by
      rw [hb]
      have p1 := plen_le o.mask
      rw [ho.mask, natDegree_X, ← ho.mask] at p1
      have p2 := plen_le (interpolate s97.H [59, 66, 7, 77])
      have p3 := plen_le (mPoly m97 o.za o.zb)
      have p4 := plen_le (interpolate s97.H [89, 72, 73, 17])
      have p5 := plen_le (zOf X2 o.w (interpolate X2 s97.inputs))
      rw [show s97.H = H4 from rfl] at p2 p4 ⊢
      rw [show s97.inputs = [1, 6] from rfl] at p5 ⊢
      refine max_le (by omega) (max_le (by omega) (by omega)))
  set q : F97[X] := o.mask + (interpolate s97.H (batchEvals s97.H m97.alpha) * mPoly m97 o.za o.zb
      - interpolate s97.H [89, 72, 73, 17] * zOf X2 o.w (interpolate X2 s97.inputs)) with hq
  have hmod : interpolate H4 [12, 15, 46, 24] = q % (X ^ H4.size - 1) := by
    refine interp_list _ rfl (mod_degree h4_valid q) fun k hk => ?_
    rw [mod_eval h4_valid, hq, hb, eval_add, eval_sub, eval_mul, eval_mul,
      mPoly_eval hlen (by rw [ho.za, za_len]; decide), show s97.H = H4 from rfl,
      show s97.inputs = [1, 6] from rfl, hz, ho.z k hk, interpolate_eval h4_valid _ hk, interpolate_eval h4_valid _ hk,
      ho.za, ho.zb, blinded_eval h4_valid _ _ hk, blinded_eval h4_valid _ _ hk, ho.mask, eval_X]
    revert hk
    revert k
    decide +kernel
  have hqd : q.natDegree = 11 := by
    rw [hq, hb, show s97.H = H4 from rfl, show s97.inputs = [1, 6] from rfl, ho.mask]
    have e1 : (interpolate H4 [59, 66, 7, 77] * mPoly m97 o.za o.zb).natDegree = 11 := by
      rw [natDegree_mul (by intro h; rw [h, natDegree_zero] at r3; omega)
        (by intro h; rw [h, natDegree_zero] at hm; omega), r3, hm]
    have e2 : (interpolate H4 [89, 72, 73, 17] * zOf X2 o.w (interpolate X2 [1, 6])).natDegree ≤ 7 :=
      natDegree_mul_le.trans (by omega)
    have e3 : (interpolate H4 [59, 66, 7, 77] * mPoly m97 o.za o.zb
        - interpolate H4 [89, 72, 73, 17] * zOf X2 o.w (interpolate X2 [1, 6])).natDegree = 11 := by
      rw [natDegree_sub_eq_left_of_natDegree_lt (by omega), e1]
    rw [natDegree_add_eq_right_of_natDegree_lt (by rw [e3, natDegree_X]; omega), e3]
  have hne : q % (X ^ s97.H.size - 1) ≠ 0 := by
    rw [show s97.H = H4 from rfl, ← hmod]
    intro h
    have := congrArg (fun p => p.coeff 3) h
    rw [coeff97 _ (by decide), coeff_zero] at this
    revert this
    decide +kernel
  refine ⟨_, second_exists mk97_ok (D := X2) rfl (tv := [89, 72, 73, 17]) (by rw [hb]; exact tEvals97) hE (by decide)
    hq hne, rfl, ?_, ?_, ?_⟩
  · dsimp only
    rw [coeff_divX, show s97.H = H4 from rfl, ← hmod, coeff97 _ (by decide)]
    decide +kernel
  · exact natDegree_divX_le (mod_degree h4_valid q)
  · dsimp only
    rw [show s97.H = H4 from rfl, div_vanish_natDegree h4_valid, hqd]
    rfl

theorem tOnK97 : tOnK H4 (H4.vanishing 5) (H4.vanishing 17) m97 17 ix97 = [77, 7, 88, 0] := by
  have e : tOnK H4 (H4.vanishing 5) (H4.vanishing 17) m97 17 ix97 = (List.range 4).map fun i =>
      (7 * ([54, 73, 0, 0] : List F97).getD i 0 * ((17 - ([22, 1, 1, 1] : List F97).getD i 0)
          * (5 - ([1, 22, 1, 1] : List F97).getD i 0)) ^ 95
        + 11 * ([43, 54, 43, 0] : List F97).getD i 0 * ((17 - ([75, 22, 75, 1] : List F97).getD i 0)
          * (5 - ([1, 22, 22, 1] : List F97).getD i 0)) ^ 95
        + 13 * ([24, 24, 24, 0] : List F97).getD i 0 * ((17 - ([96, 1, 96, 1] : List F97).getD i 0)
          * (5 - ([1, 22, 22, 1] : List F97).getD i 0)) ^ 95) * (5 ^ 4 - 1) * (17 ^ 4 - 1) := by
    unfold tOnK
    refine List.map_congr_left fun i hi => ?_
    have hi : i < H4.size := List.mem_range.mp hi
    simp only [kDenom, ix97, matrixPolys, interpolate_eval h4_valid _ hi, inv97]
    rfl
  rw [e]
  decide +kernel

theorem den97 {l : List (F97 × F97 × F97)} {γ : F97}
    (h : 0 - 5 * coef4 (l.map (·.1)) 3 - 17 * coef4 (l.map (·.2.1)) 3
      + coef4 (l.map fun t => t.1 * t.2.1) 3 ≠ 0) :
    (denPoly ⟨H4, H4, 5, 7, 11, 13, 17, γ⟩ (matrixPolys H4 l)).natDegree = 3 := by
  have hle : ∀ v : List F97, (interpolate H4 v).natDegree ≤ 3 := fun v =>
    natDegree_le_of_degree (interpolate_degree H4 v)
  refine le_antisymm ?_ (le_natDegree_of_ne_zero ?_)
  · unfold denPoly
    refine Kzg.natDegree_add_le' ?_ (hle _)
    refine (natDegree_sub_le_of_le (m := 3) (n := 3) ?_ (Kzg.natDegree_C_mul_le' _ (hle _))).trans (by decide)
    exact (natDegree_sub_le_of_le (m := 3) (n := 3) (by rw [natDegree_C]; omega)
      (Kzg.natDegree_C_mul_le' _ (hle _))).trans (by decide)
  · unfold denPoly
    rw [coeff_add, coeff_sub, coeff_sub, coeff_C_mul, coeff_C_mul, coeff_C]
    simp only [matrixPolys]
    rw [coeff97 _ (by decide), coeff97 _ (by decide), coeff97 _ (by decide), if_neg (by decide)]
    exact h

theorem third97 (ga : Good H4 H4 ix97.a_star) (gb : Good H4 H4 ix97.b_star) (gc : Good H4 H4 ix97.c_star) :
    ∃ o3, thirdRound mk97 ix97 s97 m97 17 = .ok o3 ∧ o3.g2.coeff 2 = 60 ∧ o3.g2.natDegree ≤ 2 ∧
      o3.h2.natDegree = 8 := by
  have hB : mk97 (3 * s97.K.size - 3) = some ⟨16, 8, 5⟩ := rfl
  have ht : interpolate s97.K (tOnK s97.K (s97.H.vanishing m97.alpha) (s97.H.vanishing 17) m97 17 ix97) ≠ 0 := by
    rw [show s97.K = H4 from rfl, show s97.H = H4 from rfl, show m97.alpha = 5 from rfl, tOnK97]
    intro h
    have := congrArg (fun p => p.coeff 3) h
    rw [coeff97 _ (by decide), coeff_zero] at this
    revert this
    decide +kernel
  obtain ⟨o3, h1, h2⟩ := third_exists hB (by decide) ht
  rw [show s97.K = H4 from rfl, show s97.H = H4 from rfl, show m97.alpha = 5 from rfl, tOnK97] at h2
  have hc : o3.g2.coeff 2 = 60 := by
    rw [h2, coeff_divX, coeff97 _ (by decide)]
    decide +kernel
  have hα : s97.H.vanishing m97.alpha ≠ 0 := by decide +kernel
  have hβ : s97.H.vanishing 17 ≠ 0 := by decide +kernel
  have hK : mk97 4 = some s97.K := rfl
  have hH : s97.H.Valid := h4_valid
  obtain ⟨-, h3, h4⟩ := third_ok (γ := 19) mk97_ok hH hK hα hβ ga gb gc h1
  refine ⟨o3, h1, hc, ?_, ?_⟩
  · rw [h2]
    exact natDegree_divX_le (interpolate_degree H4 _)
  set v : VState F97 := ⟨s97.H, s97.K, m97.alpha, m97.eta_a, m97.eta_b, m97.eta_c, 17, 19⟩ with hv
  have da : (denPoly v ix97.a_star).natDegree = 3 := den97 (by decide +kernel)
  have db : (denPoly v ix97.b_star).natDegree = 3 := den97 (by decide +kernel)
  have dc : (denPoly v ix97.c_star).natDegree = 3 := den97 (by decide +kernel)
  have hne : ∀ {p : F97[X]} {n : Nat}, p.natDegree = n + 1 → p ≠ 0 := by
    rintro p n h rfl
    rw [natDegree_zero] at h
    omega
  have hprod : (prodPoly v ix97.a_star ix97.b_star ix97.c_star).natDegree = 9 := by
    unfold prodPoly
    rw [natDegree_mul (mul_ne_zero (hne da) (hne db)) (hne dc), natDegree_mul (hne da) (hne db), da, db, dc]
  have hle : ∀ w : List F97, (interpolate H4 w).natDegree ≤ 3 := fun w =>
    natDegree_le_of_degree (interpolate_degree H4 w)
  have hterm : ∀ (η : F97) (w : List F97) (p q : F97[X]), p.natDegree = 3 → q.natDegree = 3 →
      (C η * interpolate H4 w * p * q).natDegree ≤ 9 := by
    intro η w p q hp hq
    refine natDegree_mul_le.trans ?_
    have h1 := natDegree_mul_le (p := C η * interpolate H4 w) (q := p)
    have h2 := Kzg.natDegree_C_mul_le' η (hle w)
    omega
  have hnum : (numPoly v ix97.a_star ix97.b_star ix97.c_star).natDegree ≤ 9 := by
    unfold numPoly
    refine natDegree_mul_le.trans ?_
    rw [natDegree_C, add_zero]
    exact Kzg.natDegree_add_le' (Kzg.natDegree_add_le' (hterm _ _ _ _ db dc) (hterm _ _ _ _ dc da))
      (hterm _ _ _ _ da db)
  have hsum : (sumPoly v ix97.a_star ix97.b_star ix97.c_star).natDegree = 3 := by
    refine le_antisymm (hle _) (le_natDegree_of_ne_zero ?_)
    rw [h3, coeff_divX] at hc
    change (sumPoly v ix97.a_star ix97.b_star ix97.c_star).coeff 3 = 60 at hc
    rw [hc]
    decide
  have hps : (prodPoly v ix97.a_star ix97.b_star ix97.c_star
      * sumPoly v ix97.a_star ix97.b_star ix97.c_star).natDegree = 12 := by
    rw [natDegree_mul (hne hprod) (hne hsum), hprod, hsum]
  rw [h4, show s97.K = H4 from rfl, div_vanish_natDegree h4_valid,
    natDegree_sub_eq_right_of_natDegree_lt (by rw [hps]; omega), hps]
  rfl

/-- Commitments succeed. -/
theorem commit97 {τ g γ : F97} {c : Coins F97} {ps : List (Kzg.LabeledPolynomial F97)}
    (hp : ∀ p ∈ ps, 1 ≤ p.polynomial.natDegree ∧ p.polynomial.natDegree ≤ 13 ∧
      (∀ d, p.degree_bound = some d → p.polynomial.natDegree ≤ d ∧ d ≤ 13) ∧
      ∀ b, p.hiding_bound = some b → 1 ≤ b ∧ b ≤ 14 ∧ ∀ d, p.degree_bound = some d → b ≤ d + 1) :
    ∃ crs, commitAll (⟨Kzg.pows τ g 14, Kzg.pows τ γ 14, 13⟩ : Kzg.CommitterKey F97) c ps = .ok crs := by
  have ht := Kzg.setup_trim_spec (N := 13) (s := 13) le_rfl τ g γ (0 : F97)
  obtain ⟨crs, hc⟩ := Kzg.C38_list_success ht (ps.map fun p => (p, c.hide p.label)) (by
    intro p hm
    obtain ⟨q, hq, rfl⟩ := List.mem_map.mp hm
    exact hp q hq)
  refine ⟨crs, ?_⟩
  unfold commitAll
  rw [hc]
  rfl

end Zkp.Marlin
