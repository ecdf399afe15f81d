/- Marlin's prover: the polynomials it computes are the ones that the verifier's equations need. -/
import Verif.Model.MarlinProver
import Verif.Proof.MarlinSound
import Verif.Proof.MarlinPlace

set_option linter.unusedSectionVars false
set_option linter.unusedSimpArgs false

namespace Zkp.Marlin

open Polynomial

variable {F : Type} [Field F] [DecidableEq F]
variable {G1 G2 GT : Type} [AddCommGroup G1] [AddCommGroup G2] [AddCommGroup GT]
  [Module F G1] [Module F G2] [Module F GT]

/-! ### Lengths and interpolation -/

theorem degree_lt_plen (p : F[X]) : p.degree < plen p := by
  unfold plen
  split
  · rename_i h; rw [h, degree_zero]; exact WithBot.bot_lt_coe _
  · rename_i h; rw [degree_eq_natDegree h]; exact_mod_cast Nat.lt_succ_self _

theorem cut_all {p : F[X]} {n : Nat} (h : plen p ≤ n) : cut n p = p := by
  unfold cut
  by_cases h0 : p = 0
  · simp [h0]
  · refine (as_sum_range_C_mul_X_pow' p ?_).symm
    unfold plen at h
    rw [if_neg h0] at h
    omega

theorem interpolate_of_eval {D : Domain F} (h : D.Valid) {p : F[X]} (hp : p.degree < D.size) (f : Nat → F)
    (hf : ∀ k < D.size, f k = p.eval (D.ω ^ k)) : interpolate D ((List.range D.size).map f) = p := by
  refine h.eq_of_agree (interpolate_degree D _) hp fun k hk => ?_
  rw [interpolate_eval h _ hk, ← hf k hk]
  simp [List.getD_eq_getElem?_getD, hk]

theorem natDegree_divX_le {p : F[X]} {n : Nat} (h : p.degree < n) : p.divX.natDegree ≤ n - 2 := by
  rw [natDegree_divX_eq_natDegree_tsub_one]
  by_cases h0 : p = 0
  · simp [h0]
  · have := (natDegree_lt_iff_degree_lt h0).mpr h
    omega

/-- The sum over the domain is the constant coefficient, for a polynomial of small degree. -/
theorem sum_low {D : Domain F} (h : D.Valid) (h2 : 2 ≤ D.size) {p : F[X]} (hp : p.degree < D.size) :
    ∑ k ∈ Finset.range D.size, p.eval (D.ω ^ k) = D.size * p.coeff 0 := by
  have e : ∀ x, p.eval x = x * p.divX.eval x + p.coeff 0 := by
    intro x
    conv_lhs => rw [← divX_mul_X_add p]
    rw [eval_add, eval_mul, eval_X, eval_C, mul_comm]
  simp only [e]
  rw [Finset.sum_add_distrib, sum_X_mul h h2 (natDegree_divX_le hp), zero_add, Finset.sum_const,
    Finset.card_range, nsmul_eq_mul]

theorem vanish_monic {D : Domain F} (h : D.Valid) : (X ^ D.size - 1 : F[X]).Monic := by
  rw [← C_1]
  exact monic_X_pow_sub_C 1 h.pos.ne'

theorem mod_degree {D : Domain F} (h : D.Valid) (q : F[X]) : (q % (X ^ D.size - 1)).degree < (D.size : WithBot ℕ) := by
  have := degree_mod_lt q (vanish_monic h).ne_zero
  have e : (X ^ D.size - 1 : F[X]).degree = D.size := by
    rw [← C_1]
    exact degree_X_pow_sub_C h.pos 1
  rwa [e] at this

theorem mod_eval {D : Domain F} (h : D.Valid) (q : F[X]) (k : Nat) :
    (q % (X ^ D.size - 1)).eval (D.ω ^ k) = q.eval (D.ω ^ k) := by
  conv_rhs => rw [← EuclideanDomain.div_add_mod q (X ^ D.size - 1)]
  rw [eval_add, eval_mul, Domain.eval_vanishing, h.vanishing_element, zero_mul, zero_add]

theorem sum_mod {D : Domain F} (h : D.Valid) (h2 : 2 ≤ D.size) (q : F[X]) :
    ∑ k ∈ Finset.range D.size, q.eval (D.ω ^ k) = D.size * (q % (X ^ D.size - 1)).coeff 0 := by
  rw [← sum_low h h2 (mod_degree h q)]
  exact Finset.sum_congr rfl fun k _ => (mod_eval h q k).symm

theorem maskPoly_sum {H : Domain F} (h : H.Valid) (h2 : 2 ≤ H.size) {m p : F[X]} (hm : maskPoly H m = .ok p) :
    ∑ k ∈ Finset.range H.size, p.eval (H.ω ^ k) = 0 := by
  unfold maskPoly at hm
  split at hm
  · cases hm
  · injection hm with hm
    subst hm
    simp only [eval_sub, eval_C]
    rw [Finset.sum_sub_distrib, sum_mod h h2, Finset.sum_const, Finset.card_range, nsmul_eq_mul, sub_self]

/-! ### The first round -/

theorem innerProduct_ok {inputs witness : List F} {row : List (F × Nat)} {v : F}
    (h : innerProduct inputs witness row = .ok v) :
    v = rowVal (fun j => (inputs ++ witness).getD j 0) row := by
  have key : ∀ (row : List (F × Nat)) (acc v : F), row.foldlM (innerStep inputs witness) acc = .ok v →
      v = acc + rowVal (fun j => (inputs ++ witness).getD j 0) row := by
    intro row
    induction row with
    | nil => intro acc v h; injection h with h; simp [rowVal, h]
    | cons t row ih =>
      intro acc v h
      rw [List.foldlM_cons] at h
      obtain ⟨a, h1, h2⟩ := Kzg.bind_ok h
      rw [ih a v h2]
      unfold innerStep at h1
      have e : (inputs ++ witness)[t.2]?
          = if t.2 < inputs.length then inputs[t.2]? else witness[t.2 - inputs.length]? := by
        split
        · rename_i hl; exact List.getElem?_append_left hl
        · rename_i hl; exact List.getElem?_append_right (by omega)
      rw [← e] at h1
      cases hx : (inputs ++ witness)[t.2]? with
      | none => rw [hx] at h1; cases h1
      | some x =>
        rw [hx] at h1
        injection h1 with h1
        simp only [rowVal, List.map_cons, List.sum_cons, List.getD_eq_getElem?_getD, hx, Option.getD_some]
        rw [← h1]
        split
        · rename_i h1'; rw [h1']; ring
        · ring
  simpa using key row 0 v h

theorem innerProduct_mapM {inputs witness : List F} : ∀ {m : Matrix F} {l : List F},
    m.mapM (innerProduct inputs witness) = .ok l → l.length = m.length ∧
    ∀ i, l.getD i 0 = rowVal (fun j => (inputs ++ witness).getD j 0) (m.getD i []) := by
  intro m l h
  rw [Kzg.mapM_ok] at h
  refine ⟨h.length_eq.symm, ?_⟩
  induction h with
  | nil => intro i; simp [rowVal]
  | cons h1 _ ih =>
    intro i
    cases i with
    | zero => simp only [List.getD_cons_zero]; exact innerProduct_ok h1
    | succ i => simp only [List.getD_cons_succ]; exact ih i

/-- Adding a multiple of the vanishing polynomial does not change the values on the domain. -/
theorem blinded_eval {H : Domain F} (h : H.Valid) (v : List F) (r : F) {k : Nat} (hk : k < H.size) :
    (interpolate H v + C r * (X ^ H.size - 1)).eval (H.ω ^ k) = v.getD k 0 := by
  rw [eval_add, eval_mul, Domain.eval_vanishing, h.vanishing_element, mul_zero, add_zero, interpolate_eval h _ hk]

theorem blinded_natDegree {H : Domain F} (h : H.Valid) (v : List F) {r : F} (hr : r ≠ 0) :
    plen (interpolate H v + C r * (X ^ H.size - 1)) = H.size + 1 := by
  have e : (X ^ H.size - 1 : F[X]).degree = H.size := by
    rw [← C_1]
    exact degree_X_pow_sub_C h.pos 1
  have e2 : (C r * (X ^ H.size - 1 : F[X])).degree = (H.size : WithBot ℕ) := by rw [degree_C_mul hr, e]
  have e3 : (interpolate H v + C r * (X ^ H.size - 1)).degree = (H.size : WithBot ℕ) := by
    rw [degree_add_eq_right_of_degree_lt (by rw [e2]; exact interpolate_degree H v), e2]
  have hne : interpolate H v + C r * (X ^ H.size - 1) ≠ 0 := by
    intro h0
    rw [h0, degree_zero] at e3
    cases e3
  unfold plen
  rw [if_neg hne, natDegree_eq_of_degree_eq_some e3]

/-! ### Reading the variables -/

theorem reindex_lt {D H : Domain F} {p : Nat} (h : Sub D H p) {j q : Nat}
    (hr : reindexBySubdomain H.size D.size j = .ok q) (hq : q < H.size) : j < H.size := by
  have hs := h.size
  have hp := h.pos
  have hdp := h.dv.pos
  unfold reindexBySubdomain at hr
  rw [h.ratio] at hr
  split at hr
  · cases hr
  split at hr
  · rename_i hj
    exact hj.trans_le h.le
  split at hr
  · cases hr
  · rename_i hj h1
    injection hr with hr
    by_contra hc
    have h2 : D.size ≤ (j - D.size) / (p - 1) := by
      rw [Nat.le_div_iff_mul_le (by omega)]
      have : D.size * (p - 1) = D.size * p - D.size := by rw [Nat.mul_sub, mul_one]
      omega
    omega

theorem z_read {D H : Domain F} {p : Nat} (h : Sub D H p) {z : F[X]} {inputs witness : List F}
    (hn : inputs.length = D.size) (hz : ∀ i < H.size, z.eval (H.ω ^ i) =
      if i % p = 0 then inputs.getD (i / p) 0
      else (witness ++ List.replicate (H.size - D.size - witness.length) 0).getD (i - i / p - 1) 0)
    {j q : Nat} (hr : reindexBySubdomain H.size D.size j = .ok q) (hq : q < H.size) :
    z.eval (H.ω ^ q) = (inputs ++ witness).getD j 0 := by
  obtain ⟨q', h1, -, h3, h4⟩ := reindex_spec h (reindex_lt h hr hq)
  have e : q' = q := by
    have : (Except.ok q' : Except Err Nat) = .ok q := h1.symm.trans hr
    injection this
  subst e
  rw [hz _ hq]
  by_cases hj : j < D.size
  · rw [h3 hj, if_pos (by simp), Nat.mul_div_cancel_left _ h.pos, List.getD_append _ _ _ _ (by omega)]
  · obtain ⟨h5, h6⟩ := h4 (by omega)
    rw [if_neg h5, h6, List.getD_append_right inputs _ _ _ (by omega), hn]
    by_cases hw : j - D.size < witness.length
    · rw [List.getD_append _ _ _ _ hw]
    · rw [List.getD_append_right _ _ _ _ (by omega), List.getD_eq_default witness _ (by omega)]
      simp only [List.getD_eq_getElem?_getD, List.getElem?_replicate]
      split <;> rfl

/-! ### The second round -/

/-- 1 if column `j` is placed at `q`. -/
def ind (H D : Domain F) (q j : Nat) : F :=
  match reindexBySubdomain H.size D.size j with
  | .ok q' => if q' = q then 1 else 0
  | .error _ => 0

theorem tStep_ok {H D : Domain F} {r : List F} {η : F} {i : Nat} {t t' : List F} {e : F × Nat}
    (h : tStep H D r η i t e = .ok t') : t'.length = t.length ∧
    ∀ q, t'.getD q 0 = t.getD q 0 + η * r.getD i 0 * (e.1 * ind H D q e.2) := by
  unfold tStep at h
  obtain ⟨q', h1, h2⟩ := Kzg.bind_ok h
  split at h2
  · rename_i hlt
    injection h2 with h2
    subst h2
    refine ⟨List.length_set .., fun q => ?_⟩
    unfold ind
    rw [h1]
    dsimp only
    by_cases hq : q' = q
    · subst hq
      simp only [List.getD_eq_getElem?_getD, List.getElem?_set_self hlt.1, Option.getD_some, if_true]
      ring
    · simp only [List.getD_eq_getElem?_getD, List.getElem?_set_ne hq, if_neg hq]
      ring
  · cases h2

theorem tFold_ok {H D : Domain F} {r : List F} {η : F} {i : Nat} : ∀ {row : List (F × Nat)} {t t' : List F},
    row.foldlM (tStep H D r η i) t = .ok t' → t'.length = t.length ∧
    ∀ q, t'.getD q 0 = t.getD q 0 + η * r.getD i 0 * rowVal (ind H D q) row := by
  intro row
  induction row with
  | nil => intro t t' h; injection h with h; subst h; simp [rowVal]
  | cons e row ih =>
    intro t t' h
    rw [List.foldlM_cons] at h
    obtain ⟨u, h1, h2⟩ := Kzg.bind_ok h
    obtain ⟨a1, a2⟩ := tStep_ok h1
    obtain ⟨b1, b2⟩ := ih h2
    refine ⟨b1.trans a1, fun q => ?_⟩
    rw [b2, a2]
    simp only [rowVal, List.map_cons, List.sum_cons]
    ring

theorem tRows_ok {H D : Domain F} {r : List F} {η : F} : ∀ {m : Matrix F} {i : Nat} {t t' : List F},
    tRows H D r η i m t = .ok t' → t'.length = t.length ∧
    ∀ q, t'.getD q 0 = t.getD q 0
      + η * ∑ k ∈ Finset.range m.length, r.getD (i + k) 0 * rowVal (ind H D q) (m.getD k []) := by
  intro m
  induction m with
  | nil => intro i t t' h; injection h with h; subst h; simp
  | cons row m ih =>
    intro i t t' h
    unfold tRows at h
    obtain ⟨u, h1, h2⟩ := Kzg.bind_ok h
    obtain ⟨a1, a2⟩ := tFold_ok h1
    obtain ⟨b1, b2⟩ := ih h2
    refine ⟨b1.trans a1, fun q => ?_⟩
    rw [b2, a2, List.length_cons, Finset.sum_range_succ']
    have e : ∀ k, i + (k + 1) = i + 1 + k := fun k => by ring
    simp only [List.getD_cons_succ, List.getD_cons_zero, Nat.add_zero]
    have e2 : ∑ k ∈ Finset.range m.length, r.getD (i + (k + 1)) 0 * rowVal (ind H D q) (m.getD k [])
        = ∑ k ∈ Finset.range m.length, r.getD (i + 1 + k) 0 * rowVal (ind H D q) (m.getD k []) :=
      Finset.sum_congr rfl fun k _ => by rw [e]
    rw [e2]
    ring

theorem tPart_at {D H K : Domain F} (hH : H.Valid) (hK : K.Valid) {m : Matrix F} {p : MatrixPolys F}
    (h : compose D H K m = .ok p) {q : Nat} (hq : q < H.size) (α : F) :
    (tPart H K p α).eval (H.ω ^ q)
      = ∑ i ∈ Finset.range m.length, (cofactor H (H.ω ^ i)).eval α * rowVal (ind H D q) (m.getD i []) := by
  rw [tPart_eval]
  refine compose_sum hK h (fun c => (cofactor H c).eval α) (fun r => (cofactor H r).eval (H.ω ^ q))
    (ind H D q) ?_
  intro j q' h1 hq'
  unfold ind
  rw [h1]
  dsimp only
  by_cases e : q' = q
  · subst e
    rw [if_pos rfl, cofactor_self (hH.vanishing_element _), ← diagonal_eq hH hq',
      inv_mul_cancel₀ (diagonal_ne hH _)]
  · rw [if_neg e, cofactor_other (hH.vanishing_element _) (hH.vanishing_element _)
      (fun hc => e (hH.inj hq' hq hc.symm)), mul_zero]

theorem batchEvals_getD {H : Domain F} (hH : H.Valid) {α : F} (hα : H.vanishing α ≠ 0) {i : Nat}
    (hi : i < H.size) : (batchEvals H α).getD i 0 = (cofactor H (H.ω ^ i)).eval α := by
  rw [cofactor_outside (hH.vanishing_element _) hα]
  unfold batchEvals
  simp [List.getD_eq_getElem?_getD, hi]
  ring

theorem batchEvals_poly {H : Domain F} (hH : H.Valid) {α : F} (hα : H.vanishing α ≠ 0) :
    interpolate H (batchEvals H α) = bivariatePoly H α := by
  refine hH.eq_of_agree (interpolate_degree H _) ?_ fun k hk => ?_
  · refine (degree_le_of_natDegree_le (bivariatePoly_natDegree H α)).trans_lt ?_
    have := hH.pos
    exact_mod_cast (by omega : H.size - 1 < H.size)
  · rw [interpolate_eval hH _ hk, batchEvals_getD hH hα hk, bivariatePoly_eval, bivariate_domain hH hα]

/-- The combination of the three matrix polynomials. -/
noncomputable def tSum (H K : Domain F) (d : IndexData F) (m : FirstMsg F) : F[X] :=
  C m.eta_a * tPart H K d.a_star m.alpha + C m.eta_b * tPart H K d.b_star m.alpha
    + C m.eta_c * tPart H K d.c_star m.alpha

theorem tEvals_poly {D H K : Domain F} (hH : H.Valid) (hK : K.Valid) {d : IndexData F} {m : FirstMsg F}
    (hα : H.vanishing m.alpha ≠ 0) (ca : compose D H K d.a = .ok d.a_star)
    (cb : compose D H K d.b = .ok d.b_star) (cc : compose D H K d.c = .ok d.c_star)
    (la : d.a.length ≤ H.size) (lb : d.b.length ≤ H.size) (lc : d.c.length ≤ H.size) {t : List F}
    (ht : tEvals H D d m (batchEvals H m.alpha) = .ok t) : interpolate H t = tSum H K d m := by
  unfold tEvals at ht
  obtain ⟨t1, h1, ht⟩ := Kzg.bind_ok ht
  obtain ⟨t2, h2, h3⟩ := Kzg.bind_ok ht
  obtain ⟨-, a⟩ := tRows_ok h1
  obtain ⟨-, b⟩ := tRows_ok h2
  obtain ⟨-, c⟩ := tRows_ok h3
  refine hH.eq_of_agree (interpolate_degree H _) ?_ fun q hq => ?_
  · have e1 : (tSum H K d m).natDegree ≤ H.size - 1 := by
      unfold tSum
      refine Kzg.natDegree_add_le' (Kzg.natDegree_add_le' ?_ ?_) ?_ <;>
      exact Kzg.natDegree_C_mul_le' _ (tPart_natDegree hH _ _ _)
    refine (degree_le_of_natDegree_le e1).trans_lt ?_
    have := hH.pos
    exact_mod_cast (by omega : H.size - 1 < H.size)
  · rw [interpolate_eval hH _ hq, c, b, a]
    unfold tSum
    simp only [eval_add, eval_mul, eval_C]
    rw [tPart_at hH hK ca hq, tPart_at hH hK cb hq, tPart_at hH hK cc hq]
    have key : ∀ mm : Matrix F, mm.length ≤ H.size →
        ∑ k ∈ Finset.range mm.length, (batchEvals H m.alpha).getD (0 + k) 0 * rowVal (ind H D q) (mm.getD k [])
        = ∑ k ∈ Finset.range mm.length, (cofactor H (H.ω ^ k)).eval m.alpha * rowVal (ind H D q) (mm.getD k []) := by
      intro mm hmm
      refine Finset.sum_congr rfl fun k hk => ?_
      rw [zero_add, batchEvals_getD hH hα (by have := Finset.mem_range.mp hk; omega)]
    rw [key _ la, key _ lb, key _ lc]
    have z0 : (List.replicate H.size (0 : F)).getD q 0 = 0 := by
      simp [List.getD_eq_getElem?_getD, hq]
    rw [z0]
    ring

theorem mul_degree_lt {p q : F[X]} {n : Nat} (h : plen p + plen q ≤ n) (hn : 0 < n) : (p * q).degree < n := by
  by_cases hp : p = 0
  · rw [hp, zero_mul, degree_zero]; exact WithBot.bot_lt_coe _
  by_cases hq : q = 0
  · rw [hq, mul_zero, degree_zero]; exact WithBot.bot_lt_coe _
  unfold plen at h
  rw [if_neg hp, if_neg hq] at h
  rw [degree_eq_natDegree (mul_ne_zero hp hq), natDegree_mul hp hq]
  exact_mod_cast (by omega : p.natDegree + q.natDegree < n)

theorem q1Poly_ok {mk : Nat → Option (Domain F)} (hmk : MkOk mk) {mask r m t z q : F[X]}
    (h : q1Poly mk mask r m t z = .ok q) : q = mask + (r * m - t * z) := by
  unfold q1Poly at h
  obtain ⟨E, hE, h⟩ := Kzg.bind_ok h
  injection h with h
  subst h
  have hE := domain_ok hE
  have hge := hmk.ge hE
  have hv := hmk.valid hE
  congr 1
  refine interpolate_of_eval hv ?_ _ fun k _ => ?_
  · refine (degree_sub_le _ _).trans_lt (max_lt ?_ ?_)
    · exact mul_degree_lt (by omega) hv.pos
    · exact mul_degree_lt (by omega) hv.pos
  · simp only [eval_sub, eval_mul]

theorem second_ok {mk : Nat → Option (Domain F)} (hmk : MkOk mk) {d : IndexData F} {s : PState F}
    {o : FirstOracles F} {m : FirstMsg F} {o2 : SecondOracles F} {D K : Domain F} (hH : s.H.Valid)
    (hK : K.Valid) (hD : mk s.inputs.length = some D)
    (hα : s.H.vanishing m.alpha ≠ 0) (ca : compose D s.H K d.a = .ok d.a_star)
    (cb : compose D s.H K d.b = .ok d.b_star) (cc : compose D s.H K d.c = .ok d.c_star)
    (la : d.a.length ≤ s.H.size) (lb : d.b.length ≤ s.H.size) (lc : d.c.length ≤ s.H.size)
    (h : secondRound mk d s o m = .ok o2) :
    2 ≤ s.H.size ∧ o2.t = tSum s.H K d m ∧ ∃ q : F[X], q = o.mask + (bivariatePoly s.H m.alpha * mPoly m o.za o.zb
        - tSum s.H K d m * zOf D o.w (interpolate D s.inputs)) ∧
      (∑ k ∈ Finset.range s.H.size, q.eval (s.H.ω ^ k) = 0 →
        ∀ x, q.eval x = o2.h1.eval x * s.H.vanishing x + x * o2.g1.eval x) := by
  unfold secondRound at h
  dsimp only at h
  obtain ⟨D', hD', h⟩ := Kzg.bind_ok h
  have e := domain_ok hD'
  rw [hD] at e
  injection e with e
  subst e
  obtain ⟨tv, htv, h⟩ := Kzg.bind_ok h
  obtain ⟨q, hq, h⟩ := Kzg.bind_ok h
  have et := tEvals_poly hH hK hα ca cb cc la lb lc htv
  rw [et, batchEvals_poly hH hα] at hq
  have hq := q1Poly_ok hmk hq
  split at h
  · cases h
  · rename_i hne
    injection h with h
    subst h
    push Not at hne
    refine ⟨hne.2, et, q, hq, fun hsum x => ?_⟩
    dsimp only
    rw [sum_mod hH hne.2] at hsum
    have h0 : (q % (X ^ s.H.size - 1)).coeff 0 = 0 := (mul_eq_zero.mp hsum).resolve_left hH.size_ne
    have e1 : q % (X ^ s.H.size - 1) = (q % (X ^ s.H.size - 1)).divX * X := by
      conv_lhs => rw [← divX_mul_X_add (q % (X ^ s.H.size - 1)), h0, C_0, add_zero]
    conv_lhs => rw [← EuclideanDomain.div_add_mod q (X ^ s.H.size - 1), e1]
    rw [eval_add, eval_mul, eval_mul, eval_X, Domain.eval_vanishing]
    ring

/-! ### The outer sum -/

theorem tPart_sum' {D H K : Domain F} (hH : H.Valid) (hK : K.Valid) {m : Matrix F} {p : MatrixPolys F}
    (h : compose D H K m = .ok p) {zp : F[X]} {z : Nat → F}
    (hz : ∀ j q, reindexBySubdomain H.size D.size j = .ok q → q < H.size → zp.eval (H.ω ^ q) = z j) (α : F) :
    ∑ j ∈ Finset.range H.size, (tPart H K p α).eval (H.ω ^ j) * zp.eval (H.ω ^ j)
      = ∑ i ∈ Finset.range m.length, (cofactor H (H.ω ^ i)).eval α * rowVal z (m.getD i []) := by
  have e1 : ∀ j, (tPart H K p α).eval (H.ω ^ j) * zp.eval (H.ω ^ j) = ∑ k ∈ Finset.range K.size,
      part H K p α (H.ω ^ j) k * zp.eval (H.ω ^ j) := by
    intro j
    rw [tPart_eval, Finset.sum_mul]
  simp only [e1]
  rw [Finset.sum_comm]
  have e2 := compose_sum hK h (fun c => (cofactor H c).eval α)
    (fun r => ∑ j ∈ Finset.range H.size, (cofactor H r).eval (H.ω ^ j) * zp.eval (H.ω ^ j)) z ?_
  · rw [← e2]
    refine Finset.sum_congr rfl fun k _ => ?_
    rw [Finset.mul_sum]
    refine Finset.sum_congr rfl fun j _ => ?_
    unfold part
    ring
  · intro j q hq hlt
    rw [sum_cofactor hH hlt (fun k => zp.eval (H.ω ^ k)), ← mul_assoc, inv_mul_cancel₀ (diagonal_ne hH _),
      one_mul]
    exact hz j q hq hlt

theorem mPoly_eval {m : FirstMsg F} {za zb : F[X]} (h : plen za = plen zb) (h1 : 0 < plen za) (x : F) :
    (mPoly m za zb).eval x = m.eta_a * za.eval x + m.eta_b * zb.eval x + m.eta_c * za.eval x * zb.eval x := by
  have ha : za ≠ 0 := by
    rintro rfl
    simp [plen] at h1
  have hb : zb ≠ 0 := by
    rintro rfl
    rw [h] at h1
    simp [plen] at h1
  have hl : plen za ≤ plen (za * zb) := by
    unfold plen
    rw [if_neg ha, if_neg (mul_ne_zero ha hb), natDegree_mul ha hb]
    omega
  unfold mPoly
  dsimp only
  rw [cut_all (by omega), cut_all (by omega)]
  simp only [eval_add, eval_mul, eval_C]
  ring

/-- The sum of the outer polynomial over `H` is zero for an assignment that satisfies the matrices. -/
theorem outer_zero {D H K : Domain F} (hH : H.Valid) (hK : K.Valid) {d : IndexData F} {m : FirstMsg F}
    (hα : H.vanishing m.alpha ≠ 0) (ca : compose D H K d.a = .ok d.a_star)
    (cb : compose D H K d.b = .ok d.b_star) (cc : compose D H K d.c = .ok d.c_star)
    {zp : F[X]} {z : Nat → F}
    (hz : ∀ j q, reindexBySubdomain H.size D.size j = .ok q → q < H.size → zp.eval (H.ω ^ q) = z j)
    (hsat : MatSat d.a d.b d.c z) (hl : d.c.length ≤ H.size) {za zb mask : F[X]}
    (hza : ∀ i < H.size, za.eval (H.ω ^ i) = rowVal z (d.a.getD i []))
    (hzb : ∀ i < H.size, zb.eval (H.ω ^ i) = rowVal z (d.b.getD i []))
    (hmask : ∑ k ∈ Finset.range H.size, mask.eval (H.ω ^ k) = 0)
    (hlen : plen za = plen zb) (h1 : 0 < plen za) :
    ∑ k ∈ Finset.range H.size, (mask + (bivariatePoly H m.alpha * mPoly m za zb
        - tSum H K d m * zp)).eval (H.ω ^ k) = 0 := by
  have ext : ∀ mm : Matrix F, mm.length ≤ H.size →
      ∑ i ∈ Finset.range mm.length, (cofactor H (H.ω ^ i)).eval m.alpha * rowVal z (mm.getD i [])
      = ∑ i ∈ Finset.range H.size, (cofactor H (H.ω ^ i)).eval m.alpha * rowVal z (mm.getD i []) := by
    intro mm hmm
    refine Finset.sum_subset (Finset.range_mono hmm) fun i _ hi => ?_
    rw [Finset.mem_range, not_lt] at hi
    rw [List.getD_eq_default _ _ hi]
    simp [rowVal]
  have s1 := (tPart_sum' hH hK ca hz m.alpha).trans (ext _ (by rw [hsat.1]; exact hl))
  have s2 := (tPart_sum' hH hK cb hz m.alpha).trans (ext _ (by rw [hsat.2.1]; exact hl))
  have s3 := (tPart_sum' hH hK cc hz m.alpha).trans (ext _ hl)
  have hc : ∀ i < H.size, rowVal z (d.c.getD i []) = rowVal z (d.a.getD i []) * rowVal z (d.b.getD i []) := by
    intro i _
    by_cases hi : i < d.c.length
    · exact (hsat.2.2 i hi).symm
    · have a1 := hsat.1
      rw [List.getD_eq_default _ _ (by omega), List.getD_eq_default d.a _ (by omega)]
      simp [rowVal]
  have e1 : ∑ k ∈ Finset.range H.size, (tSum H K d m).eval (H.ω ^ k) * zp.eval (H.ω ^ k)
      = ∑ i ∈ Finset.range H.size, (cofactor H (H.ω ^ i)).eval m.alpha *
        (m.eta_a * rowVal z (d.a.getD i []) + m.eta_b * rowVal z (d.b.getD i [])
          + m.eta_c * rowVal z (d.c.getD i [])) := by
    unfold tSum
    simp only [eval_add, eval_mul, eval_C, add_mul, mul_add, Finset.sum_add_distrib]
    simp only [mul_assoc, ← Finset.mul_sum]
    rw [s1, s2, s3]
    simp only [Finset.mul_sum]
    congr 1
    · congr 1
      · exact Finset.sum_congr rfl fun i _ => by ring
      · exact Finset.sum_congr rfl fun i _ => by ring
    · exact Finset.sum_congr rfl fun i _ => by ring
  simp only [eval_add, eval_sub, eval_mul, Finset.sum_add_distrib, Finset.sum_sub_distrib]
  rw [hmask, e1, zero_add, sub_eq_zero]
  refine Finset.sum_congr rfl fun i hi => ?_
  have hi := Finset.mem_range.mp hi
  rw [bivariatePoly_eval, bivariate_domain hH hα, mPoly_eval hlen h1, hza i hi, hzb i hi, hc i hi]
  ring

/-! ### The third round -/

theorem bigDomain {mk : Nat → Option (Domain F)} (hmk : MkOk mk) {n : Nat} {K B : Domain F} (hK : mk n = some K)
    (h2 : 2 ≤ K.size) (hB : mk (3 * K.size - 3) = some B) : 3 * (K.size - 1) < B.size := by
  have hge := hmk.ge hB
  obtain ⟨k, hk⟩ := hmk.pow hK
  obtain ⟨b, hb⟩ := hmk.pow hB
  by_contra hc
  have e : B.size = 3 * K.size - 3 := by omega
  match k with
  | 0 => rw [hk] at h2; simp at h2
  | k + 1 =>
    match b with
    | 0 => rw [hb] at e; rw [hk] at e h2; rw [pow_succ] at e h2; omega
    | b + 1 => rw [hb, hk, pow_succ, pow_succ] at e; rw [hk, pow_succ] at h2; omega

theorem degree_lt_of_natDegree {p : F[X]} {n m : Nat} (h : p.natDegree ≤ n) (hn : n < m) : p.degree < m :=
  (degree_le_of_natDegree_le h).trans_lt (by exact_mod_cast hn)

theorem third_ok {mk : Nat → Option (Domain F)} (hmk : MkOk mk) {d : IndexData F} {s : PState F}
    {m : FirstMsg F} {β γ : F} {o3 : ThirdOracles F} {n : Nat} (hH : s.H.Valid)
    (hK : mk n = some s.K) (hα : s.H.vanishing m.alpha ≠ 0) (hβ : s.H.vanishing β ≠ 0)
    (ga : Good s.H s.K d.a_star) (gb : Good s.H s.K d.b_star) (gc : Good s.H s.K d.c_star)
    (h : thirdRound mk d s m β = .ok o3) :
    let v : VState F := ⟨s.H, s.K, m.alpha, m.eta_a, m.eta_b, m.eta_c, β, γ⟩
    2 ≤ s.K.size ∧ o3.g2 = (sumPoly v d.a_star d.b_star d.c_star).divX ∧
    o3.h2 = (numPoly v d.a_star d.b_star d.c_star
      - prodPoly v d.a_star d.b_star d.c_star * sumPoly v d.a_star d.b_star d.c_star) / (X ^ s.K.size - 1) := by
  intro v
  have hv := hmk.valid hK
  unfold thirdRound at h
  dsimp only at h
  obtain ⟨B, hB, h⟩ := Kzg.bind_ok h
  split at h
  · cases h
  rename_i hne
  push Not at hne
  injection h with h
  have hB := domain_ok hB
  have hbig := bigDomain hmk hK hne.2 hB
  have hBv := hmk.valid hB
  have e1 : interpolate s.K (tOnK s.K (s.H.vanishing m.alpha) (s.H.vanishing β) m β d)
      = sumPoly v d.a_star d.b_star d.c_star := by
    unfold sumPoly tOnK
    congr 1
    refine List.map_congr_left fun k hk => ?_
    have hk : k < s.K.size := List.mem_range.mp hk
    have key : ∀ mm : MatrixPolys F, Good s.H s.K mm →
        (denPoly v mm).eval (s.K.ω ^ k) = kDenom s.K m.alpha β mm k := by
      intro mm hmm
      obtain ⟨i, j, hi, hj, hij⟩ := hmm.pts k hk
      unfold denPoly kDenom
      simp only [eval_add, eval_sub, eval_mul, eval_C]
      rw [hi, hj, hij]
      change m.alpha * β - m.alpha * _ - β * _ + _ = _
      ring
    have na := den_ne (s := v) hH hα hβ ga hk
    have nb := den_ne (s := v) hH hα hβ gb hk
    have nc := den_ne (s := v) hH hα hβ gc hk
    change _ = (numPoly v d.a_star d.b_star d.c_star).eval (s.K.ω ^ k) / (prodPoly v d.a_star d.b_star d.c_star).eval (s.K.ω ^ k)
    unfold numPoly prodPoly
    simp only [eval_add, eval_mul, eval_C]
    have na : (denPoly v d.a_star).eval (s.K.ω ^ k) ≠ 0 := na
    have nb : (denPoly v d.b_star).eval (s.K.ω ^ k) ≠ 0 := nb
    have nc : (denPoly v d.c_star).eval (s.K.ω ^ k) ≠ 0 := nc
    rw [← key _ ga, ← key _ gb, ← key _ gc]
    field_simp
    have v1 : v.eta_a = m.eta_a := rfl
    have v2 : v.eta_b = m.eta_b := rfl
    have v3 : v.eta_c = m.eta_c := rfl
    have v4 : v.H.vanishing v.alpha = s.H.vanishing m.alpha := rfl
    have v5 : v.H.vanishing v.beta = s.H.vanishing β := rfl
    rw [v1, v2, v3, v4, v5]
    ring
  have e2 : interpolate B (aOnB B (s.H.vanishing m.alpha) (s.H.vanishing β) m β d)
      = numPoly v d.a_star d.b_star d.c_star := by
    refine interpolate_of_eval hBv (degree_lt_of_natDegree (num_natDegree (s := v) ga gb gc) hbig) _ fun k _ => ?_
    unfold numPoly denPoly bDenom
    simp only [eval_add, eval_sub, eval_mul, eval_C]
    change _ = (m.eta_a * _ * (m.alpha * β - m.alpha * _ - β * _ + _) * _ + m.eta_b * _ * _ * (m.alpha * β - m.alpha * _ - β * _ + _)
      + m.eta_c * _ * _ * _) * (s.H.vanishing m.alpha * s.H.vanishing β)
    ring
  have e3 : interpolate B (bOnB B m β d) = prodPoly v d.a_star d.b_star d.c_star := by
    refine interpolate_of_eval hBv (degree_lt_of_natDegree (mul3_natDegree (den_natDegree (s := v) ga)
      (den_natDegree (s := v) gb) (den_natDegree (s := v) gc)) hbig) _ fun k _ => ?_
    unfold denPoly bDenom
    simp only [eval_add, eval_sub, eval_mul, eval_C]
    change _ = (m.alpha * β - m.alpha * _ - β * _ + _) * (m.alpha * β - m.alpha * _ - β * _ + _)
      * (m.alpha * β - m.alpha * _ - β * _ + _)
    ring
  rw [e1, e2, e3] at h
  rw [← h]
  exact ⟨hne.2, rfl, rfl⟩

/-- The constant of the inner sum-check is `t(β)` over the size of `K`. -/
theorem t_at_beta {d : IndexData F} {m : FirstMsg F} {H K : Domain F} {β γ : F} (hH : H.Valid) (hK : K.Valid)
    (h2 : 2 ≤ K.size) (hα : H.vanishing m.alpha ≠ 0) (hβ : H.vanishing β ≠ 0)
    (ga : Good H K d.a_star) (gb : Good H K d.b_star) (gc : Good H K d.c_star) :
    (tSum H K d m).eval β = K.size * (sumPoly ⟨H, K, m.alpha, m.eta_a, m.eta_b, m.eta_c, β, γ⟩ d.a_star d.b_star
      d.c_star).coeff 0 := by
  have hlow := sum_low hK h2 (p := sumPoly ⟨H, K, m.alpha, m.eta_a, m.eta_b, m.eta_c, β, γ⟩ d.a_star d.b_star
      d.c_star) (interpolate_degree K _)
  rw [← hlow]
  unfold tSum
  simp only [eval_add, eval_mul, eval_C, tPart_eval, Finset.mul_sum]
  rw [← Finset.sum_add_distrib, ← Finset.sum_add_distrib]
  refine Finset.sum_congr rfl fun k hk => ?_
  have hk := Finset.mem_range.mp hk
  have e := num_div (s := ⟨H, K, m.alpha, m.eta_a, m.eta_b, m.eta_c, β, γ⟩) hH hα hβ ga gb gc hk
  unfold sumPoly
  rw [interpolate_eval hK _ hk]
  have e' : ∀ f : Nat → F, ((List.range K.size).map f).getD k 0 = f k := by
    intro f
    simp [List.getD_eq_getElem?_getD, hk]
  rw [e', e]

end Zkp.Marlin
