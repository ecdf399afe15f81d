/- C43, the part that holds: the equations of the Plonk verifier imply that the circuit is satisfied, when the
polynomials of each round are fixed before the challenges of that round. -/
import Verif.Props.Plonk
import Verif.Proof.MarlinSound

set_option linter.unusedSectionVars false
set_option linter.unusedSimpArgs false

namespace Zkp.Plonk

open Polynomial

variable {F : Type} [Field F] [DecidableEq F]

/-- The verifier accepts for the challenges `c`, with the evaluations of the committed polynomials `m`: the
claimed evaluations are those of the verifier's linear combinations, and the equality check passes. -/
def Accepted (i : Index F) (pi : List F) (c : Chals F) (m : Msgs F) : Prop :=
  ∃ es lcs,
    linearCombinations i.info c (fun lc x => getEval (evalMap (querySet i.info.domain_n c.zeta) es) lc.label x)
      = .ok lcs ∧
    (querySet i.info.domain_n c.zeta).mapM (evalQuery lcs (i.polys ++ m.polys)) = .ok es ∧
    equalityCheck i.info.domain_n c (evalMap (querySet i.info.domain_n c.zeta) es) pi = .ok true

theorem getEval_ok {ev : String → F → Option F} {l : String} {x v : F} (h : getEval ev l x = .ok v) :
    ev l x = some v := by
  unfold getEval at h
  split at h
  · injection h with h; subst h; assumption
  · cases h

theorem firstLagrange_ne {D : Domain F} {ζ v : F} (h : evaluateFirstLagrange D ζ = .ok v) : ζ ≠ 1 := by
  rintro rfl
  unfold evaluateFirstLagrange invOrPanic at h
  rw [sub_self, mul_zero, if_pos rfl] at h
  cases h

theorem padToSize_len {v : List F} {n : Nat} {r : List F} (h : padToSize v n = .ok r) :
    v.length ≤ n ∧ r = v ++ List.replicate (n - v.length) 0 := by
  unfold padToSize at h
  split at h
  · cases h
  · injection h with h
    exact ⟨by omega, h.symm⟩

theorem evalQuery_single {lcs : List (LinComb F)} {polys : List (String × F[X])} {l : String} {x v : F} {p : F[X]}
    (h1 : lcs.find? (·.label = l) = some (single l)) (h2 : polys.find? (·.1 = l) = some (l, p))
    (h : evalQuery lcs polys (l, x) = .ok v) : v = p.eval x := by
  unfold evalQuery at h
  dsimp only at h
  rw [h1] at h
  dsimp only at h
  rw [evalPolys_cons h2] at h
  injection h with h
  exact h.symm

theorem Accepted.identity {i : Index F} (hD : i.info.domain_n.Valid) (hn : i.info.n = i.info.domain_n.size)
    {pi : List F} {c : Chals F} {m : Msgs F} (h : Accepted i pi c m) :
    c.zeta ≠ 1 ∧ pi.length ≤ i.info.domain_n.size ∧
    (checkPoly i m.w0 m.w1 m.w2 m.w3 m.z
        (interpolate i.info.domain_n (pi ++ List.replicate (i.info.domain_n.size - pi.length) 0)) c.beta c.gamma
        c.alpha).eval c.zeta =
      tValue i.info.n m c.zeta * (c.zeta ^ i.info.domain_n.size - 1) := by
  obtain ⟨es, lcs, h1, h2, h3⟩ := h
  set D := i.info.domain_n with hDdef
  set qs := querySet D c.zeta with hqs
  have h1o := h1
  unfold linearCombinations at h1
  obtain ⟨w0, hw0, h1⟩ := except_bind h1
  obtain ⟨w1, hw1, h1⟩ := except_bind h1
  obtain ⟨w2, hw2, h1⟩ := except_bind h1
  obtain ⟨w3, hw3, h1⟩ := except_bind h1
  obtain ⟨zs, hzs, h1⟩ := except_bind h1
  obtain ⟨s0, hs0, h1⟩ := except_bind h1
  obtain ⟨s1, hs1, h1⟩ := except_bind h1
  obtain ⟨s2, hs2, h1⟩ := except_bind h1
  obtain ⟨qa, hqa, h1⟩ := except_bind h1
  obtain ⟨perm, hperm, h1⟩ := except_bind h1
  injection h1 with h1
  have hz1 : c.zeta ≠ 1 := by
    unfold permTerms at hperm
    obtain ⟨l1, hl1, -⟩ := except_bind hperm
    exact firstLagrange_ne hl1
  -- the evaluations
  have h2' := h2
  rw [hqs] at h2'
  unfold querySet at h2'
  simp only [List.mapM_cons, List.mapM_nil] at h2'
  obtain ⟨e0, he0, h2'⟩ := except_bind h2'
  obtain ⟨_, h2a, h2'⟩ := except_bind h2'
  injection h2' with h2'
  obtain ⟨e1, he1, h2b⟩ := except_bind h2a
  obtain ⟨_, h2c, h2b⟩ := except_bind h2b
  injection h2b with h2b
  obtain ⟨e2, he2, h2d⟩ := except_bind h2c
  obtain ⟨_, h2e, h2d⟩ := except_bind h2d
  injection h2d with h2d
  obtain ⟨e3, he3, h2f⟩ := except_bind h2e
  obtain ⟨_, h2g, h2f⟩ := except_bind h2f
  injection h2f with h2f
  obtain ⟨e4, he4, h2h⟩ := except_bind h2g
  obtain ⟨_, h2i, h2h⟩ := except_bind h2h
  injection h2h with h2h
  obtain ⟨e5, he5, h2j⟩ := except_bind h2i
  obtain ⟨_, h2k, h2j⟩ := except_bind h2j
  injection h2j with h2j
  obtain ⟨e6, he6, h2l⟩ := except_bind h2k
  obtain ⟨_, h2m, h2l⟩ := except_bind h2l
  injection h2l with h2l
  obtain ⟨e7, he7, h2n⟩ := except_bind h2m
  obtain ⟨_, h2o, h2n⟩ := except_bind h2n
  injection h2n with h2n
  obtain ⟨e8, he8, h2p⟩ := except_bind h2o
  obtain ⟨_, h2q, h2p⟩ := except_bind h2p
  injection h2p with h2p
  obtain ⟨e9, he9, h2r⟩ := except_bind h2q
  obtain ⟨_, h2s, h2r⟩ := except_bind h2r
  injection h2r with h2r
  obtain ⟨e10, he10, h2t⟩ := except_bind h2s
  obtain ⟨_, h2u, h2t⟩ := except_bind h2t
  injection h2t with h2t
  injection h2u with h2u
  subst h2u h2t h2r h2p h2n h2l h2j h2h h2f h2d h2b
  have get : ∀ (k : Nat) (l : String) (x v u : F), qs[k]? = some (l, x) → es[k]? = some v →
      getEval (evalMap qs es) l x = .ok u → u = v := by
    intro k l x v u hk1 hk2 hk3
    have := evalMap_get qs es l x v k hk1 hk2 (querySet_nodup _ _)
    rw [getEval_ok hk3] at this
    exact Option.some.inj this
  have v0 := get 6 "w_0" c.zeta e6 w0 rfl (by rw [← h2']; rfl) hw0
  have v1 := get 7 "w_1" c.zeta e7 w1 rfl (by rw [← h2']; rfl) hw1
  have v2 := get 8 "w_2" c.zeta e8 w2 rfl (by rw [← h2']; rfl) hw2
  have v3 := get 9 "w_3" c.zeta e9 w3 rfl (by rw [← h2']; rfl) hw3
  have vz := get 10 "z" (c.zeta * D.element 1) e10 zs rfl (by rw [← h2']; rfl) hzs
  have vs0 := get 2 "sigma_0" c.zeta e2 s0 rfl (by rw [← h2']; rfl) hs0
  have vs1 := get 3 "sigma_1" c.zeta e3 s1 rfl (by rw [← h2']; rfl) hs1
  have vs2 := get 4 "sigma_2" c.zeta e4 s2 rfl (by rw [← h2']; rfl) hs2
  have vqa := get 0 "q_arith" c.zeta e0 qa rfl (by rw [← h2']; rfl) hqa
  have u0 := evalQuery_single (p := m.w0) (by rw [← h1]; simp [single, tComb]) (by simp [Index.polys, Msgs.polys]) he6
  have u1 := evalQuery_single (p := m.w1) (by rw [← h1]; simp [single, tComb]) (by simp [Index.polys, Msgs.polys]) he7
  have u2 := evalQuery_single (p := m.w2) (by rw [← h1]; simp [single, tComb]) (by simp [Index.polys, Msgs.polys]) he8
  have u3 := evalQuery_single (p := m.w3) (by rw [← h1]; simp [single, tComb]) (by simp [Index.polys, Msgs.polys]) he9
  have uz := evalQuery_single (p := m.z) (by rw [← h1]; simp [single, tComb]) (by simp [Index.polys, Msgs.polys]) he10
  have us0 := evalQuery_single (p := i.sigma_0.poly) (by rw [← h1]; simp [single, tComb])
    (by simp [Index.polys, Msgs.polys]) he2
  have us1 := evalQuery_single (p := i.sigma_1.poly) (by rw [← h1]; simp [single, tComb])
    (by simp [Index.polys, Msgs.polys]) he3
  have us2 := evalQuery_single (p := i.sigma_2.poly) (by rw [← h1]; simp [single, tComb])
    (by simp [Index.polys, Msgs.polys]) he4
  have uqa := evalQuery_single (p := i.q_arith.poly) (by rw [← h1]; simp [single, tComb])
    (by simp [Index.polys, Msgs.polys]) he0
  have hlcs : lcs = honestLcs i c m := by
    have := honest_lcs hD hz1 m (ev := fun lc x => getEval (evalMap qs es) lc.label x)
      (by rw [← u0, ← v0]; exact hw0) (by rw [← u1, ← v1]; exact hw1) (by rw [← u2, ← v2]; exact hw2)
      (by rw [← u3, ← v3]; exact hw3) (by rw [← uz, ← vz]; exact hzs) (by rw [← us0, ← vs0]; exact hs0)
      (by rw [← us1, ← vs1]; exact hs1) (by rw [← us2, ← vs2]; exact hs2) (by rw [← uqa, ← vqa]; exact hqa)
    exact Except.ok.inj (h1o.symm.trans this)
  rw [hlcs, honest_evals] at h2
  injection h2 with hes
  refine ⟨hz1, ?_⟩
  unfold equalityCheck at h3
  obtain ⟨pi', hpi', h3⟩ := except_bind h3
  obtain ⟨hlen, rfl⟩ := padToSize_len hpi'
  refine ⟨hlen, ?_⟩
  have get : ∀ (k : Nat) (l : String) (x v : F), qs[k]? = some (l, x) → es[k]? = some v →
      getEval (evalMap qs es) l x = .ok v := by
    intro k l x v hk1 hk2
    unfold getEval
    rw [evalMap_get qs es l x v k hk1 hk2 (querySet_nodup _ _)]
  rw [get 6 "w_0" c.zeta _ rfl (by rw [← hes]; rfl), get 7 "w_1" c.zeta _ rfl (by rw [← hes]; rfl),
    get 8 "w_2" c.zeta _ rfl (by rw [← hes]; rfl), get 9 "w_3" c.zeta _ rfl (by rw [← hes]; rfl),
    get 10 "z" (c.zeta * D.element 1) _ rfl (by rw [← hes]; rfl), get 2 "sigma_0" c.zeta _ rfl (by rw [← hes]; rfl),
    get 3 "sigma_1" c.zeta _ rfl (by rw [← hes]; rfl), get 4 "sigma_2" c.zeta _ rfl (by rw [← hes]; rfl),
    get 0 "q_arith" c.zeta _ rfl (by rw [← hes]; rfl), get 5 "t" c.zeta _ rfl (by rw [← hes]; rfl),
    get 1 "r" c.zeta _ rfl (by rw [← hes]; rfl), firstLagrange_eval hD hz1] at h3
  injection h3 with h3
  exact (final_iff i rfl c m _ _).mp h3

/-- As `checkPoly_natDegree`, for polynomials of the degree supported by the keys. -/
theorem checkPoly_natDegree_le {s : Selectors F} {ks : Fin 4 → F} {i : Index F} (h : IndexOk s ks i)
    {w0 w1 w2 w3 z pi : F[X]} (h0 : w0.natDegree ≤ i.info.domain_n.size) (h1 : w1.natDegree ≤ i.info.domain_n.size)
    (h2 : w2.natDegree ≤ i.info.domain_n.size) (h3 : w3.natDegree ≤ i.info.domain_n.size)
    (hz : z.natDegree ≤ i.info.domain_n.size) (hpi : pi.natDegree ≤ i.info.domain_n.size) (β γ α : F) :
    (checkPoly i w0 w1 w2 w3 z pi β γ α).natDegree ≤ 5 * i.info.domain_n.size := by
  have hq : ∀ p ∈ i.polys, p.2.natDegree ≤ i.info.domain_n.size := fun p hp => (h.polys_natDegree hp).le
  have q0 := hq ("q_0", i.q_0.poly) (by simp [Index.polys])
  have q1 := hq ("q_1", i.q_1.poly) (by simp [Index.polys])
  have q2 := hq ("q_2", i.q_2.poly) (by simp [Index.polys])
  have q3 := hq ("q_3", i.q_3.poly) (by simp [Index.polys])
  have qm := hq ("q_m", i.q_m.poly) (by simp [Index.polys])
  have qc := hq ("q_c", i.q_c.poly) (by simp [Index.polys])
  have qa := hq ("q_arith", i.q_arith.poly) (by simp [Index.polys])
  have s0 := hq ("sigma_0", i.sigma_0.poly) (by simp [Index.polys])
  have s1 := hq ("sigma_1", i.sigma_1.poly) (by simp [Index.polys])
  have s2 := hq ("sigma_2", i.sigma_2.poly) (by simp [Index.polys])
  have s3 := hq ("sigma_3", i.sigma_3.poly) (by simp [Index.polys])
  have l1 : (firstLagrangePoly i.info.domain_n).natDegree ≤ i.info.domain_n.size :=
    (interpolate_natDegree h.valid _).le
  dsimp only at q0 q1 q2 q3 qm qc qa s0 s1 s2 s3
  have hpos := h.valid.pos
  set n := i.info.domain_n.size with hn
  have hc : ∀ a : F, (C a).natDegree ≤ 0 := fun a => by simp
  have hcomp : (z.comp (C (i.info.domain_n.element 1) * X)).natDegree ≤ n := by
    refine (natDegree_comp_le).trans ?_
    calc z.natDegree * _ ≤ z.natDegree * 1 := Nat.mul_le_mul_left _ (natDegree_C_mul_X_le _)
      _ ≤ n := by omega
  have num : ∀ {w : F[X]} (k : F), w.natDegree ≤ n → (w + C k * X + C γ).natDegree ≤ n := by
    intro w k hw
    exact natDegree_add_le' (natDegree_add_le' (by omega) ((natDegree_C_mul_X_le k).trans hpos))
      ((hc γ).trans (by omega))
  have den : ∀ {w s : F[X]}, w.natDegree ≤ n → s.natDegree ≤ n → (w + C β * s + C γ).natDegree ≤ n := by
    intro w s hw hs
    exact natDegree_add_le' (natDegree_add_le' (by omega) ((natDegree_mul_le' (hc β) hs).trans (by omega)))
      ((hc γ).trans (by omega))
  have hA : (arithPoly i w0 w1 w2 w3 pi).natDegree ≤ 5 * n := by
    unfold arithPoly
    have e : (i.q_0.poly * w0 + i.q_1.poly * w1 + i.q_2.poly * w2 + i.q_3.poly * w3 + i.q_m.poly * w1 * w2
        + i.q_c.poly + pi).natDegree ≤ 4 * n :=
      natDegree_add_le' (natDegree_add_le' (natDegree_add_le' (natDegree_add_le' (natDegree_add_le'
        (natDegree_add_le' ((natDegree_mul_le' q0 h0).trans (by omega)) ((natDegree_mul_le' q1 h1).trans (by omega)))
        ((natDegree_mul_le' q2 h2).trans (by omega))) ((natDegree_mul_le' q3 h3).trans (by omega)))
        ((natDegree_mul_le' (natDegree_mul_le' qm h1) h2).trans (by omega))) (by omega)) (by omega)
    exact (natDegree_mul_le' e qa).trans (by omega)
  have hN : (numPoly i w0 w1 w2 w3 β γ * z).natDegree ≤ 5 * n := by
    unfold numPoly
    exact (natDegree_mul_le' (natDegree_mul_le' (natDegree_mul_le' (natDegree_mul_le' (num _ h0) (num _ h1))
      (num _ h2)) (num _ h3)) hz).trans (by omega)
  have hDn : (denPoly i w0 w1 w2 w3 β γ * z.comp (C (i.info.domain_n.element 1) * X)).natDegree ≤ 5 * n := by
    unfold denPoly
    exact (natDegree_mul_le' (natDegree_mul_le' (natDegree_mul_le' (natDegree_mul_le' (den h0 s0) (den h1 s1))
      (den h2 s2)) (den h3 s3)) hcomp).trans (by omega)
  have hL : (firstLagrangePoly i.info.domain_n * (z - 1)).natDegree ≤ 5 * n :=
    (natDegree_mul_le' l1 (natDegree_sub_le' hz (by simp))).trans (by omega)
  unfold checkPoly
  exact natDegree_add_le' (natDegree_add_le' hA ((natDegree_mul_le' (hc α) (natDegree_sub_le' hN hDn)).trans
    (show 0 + 5 * n ≤ 5 * n by omega))) ((natDegree_mul_le' (hc (α ^ 2)) hL).trans
    (show 0 + 5 * n ≤ 5 * n by omega))

/-- A quadratic with three zeros vanishes. -/
theorem quadratic_zero {S : Finset F} (hS : 3 ≤ S.card) {a b d : F} (h : ∀ x ∈ S, a + x * b + x ^ 2 * d = 0) :
    a = 0 ∧ b = 0 ∧ d = 0 := by
  have hp : (C a + X * C b + X ^ 2 * C d : F[X]) = 0 := by
    apply Marlin.eq_zero_of_many (S := S)
    · refine lt_of_le_of_lt ?_ (show 2 < S.card by omega)
      compute_degree
    · intro x hx
      simp only [eval_add, eval_mul, eval_C, eval_X, eval_pow]
      exact h x hx
  have c0 := congrArg (fun p => coeff p 0) hp
  have c1 := congrArg (fun p => coeff p 1) hp
  have c2 := congrArg (fun p => coeff p 2) hp
  simp [coeff_C, coeff_X, coeff_X_pow] at c0 c1 c2
  exact ⟨c0, c1, c2⟩

/-- If the two products over all positions agree for many `β` and `γ`, the values respect the permutation. -/
theorem perm_respected {n : Nat} (σ : Equiv.Perm (Fin 4 × Fin n)) (w id : Fin 4 × Fin n → F)
    (hid : Function.Injective id) {S : Finset F} (hS : 4 * n < S.card)
    (h : ∀ β ∈ S, ∀ γ ∈ S, ∏ p, (w p + β * id p + γ) = ∏ p, (w p + β * id (σ p) + γ)) (p : Fin 4 × Fin n) :
    w (σ p) = w p := by
  classical
  -- as polynomials in γ
  have hpoly : ∀ β ∈ S, ∀ γ : F, ∏ p, (w p + β * id p + γ) = ∏ p, (w p + β * id (σ p) + γ) := by
    intro β hβ γ
    have hcard : Finset.univ.card (α := Fin 4 × Fin n) = 4 * n := by simp
    have e : (∏ p, (X + C (w p + β * id p)) - ∏ p, (X + C (w p + β * id (σ p))) : F[X]) = 0 := by
      apply Marlin.eq_zero_of_many (S := S)
      · refine lt_of_le_of_lt ?_ hS
        apply natDegree_sub_le'
        · refine (natDegree_prod_le _ _).trans ?_
          simp only [natDegree_X_add_C]
          simp
        · refine (natDegree_prod_le _ _).trans ?_
          simp only [natDegree_X_add_C]
          simp
      · intro γ hγ
        rw [eval_sub, eval_prod, eval_prod]
        simp only [eval_add, eval_X, eval_C]
        have := h β hβ γ hγ
        rw [sub_eq_zero]
        simpa only [add_comm γ] using this
    have := congrArg (eval γ) (sub_eq_zero.mp e)
    rw [eval_prod, eval_prod] at this
    simpa only [eval_add, eval_X, eval_C, add_comm γ] using this
  -- every identity label occurs on the other side
  have hocc : ∀ β ∈ S, ∃ q, w (σ p) + β * id (σ p) = w q + β * id (σ q) := by
    intro β hβ
    have := hpoly β hβ (-(w (σ p) + β * id (σ p)))
    rw [Finset.prod_eq_zero (Finset.mem_univ (σ p)) (by ring)] at this
    obtain ⟨q, -, hq⟩ := Finset.prod_eq_zero_iff.mp this.symm
    exact ⟨q, by linear_combination -hq⟩
  have : Nonempty (Fin 4 × Fin n) := ⟨p⟩
  choose! f hf using hocc
  obtain ⟨β, hβ, β', hβ', hne, heq⟩ := Finset.exists_ne_map_eq_of_card_lt_of_maps_to
    (t := (Finset.univ : Finset (Fin 4 × Fin n))) (f := f) (by simpa using hS) (fun _ _ => Finset.mem_univ _)
  have h1 := hf β hβ
  have h2 := hf β' hβ'
  rw [← heq] at h2
  have h3 : (β - β') * (id (σ p) - id (σ (f β))) = 0 := by linear_combination h1 - h2
  rcases mul_eq_zero.mp h3 with h4 | h4
  · exact absurd (sub_eq_zero.mp h4) hne
  · have h5 := hid (sub_eq_zero.mp h4)
    rw [← h5] at h1
    rw [← σ.injective h5] at h1
    exact add_right_cancel h1

theorem filter_gate (ops : List (Op F)) (i : Nat) :
    (ops.filterMap Op.gate)[i]? = ((ops.filter fun op => op.gate.isSome)[i]?).bind Op.gate := by
  induction ops generalizing i with
  | nil => rfl
  | cons op ops ih =>
    cases h : op.gate with
    | none => rw [List.filterMap_cons_none h, List.filter_cons_of_neg (by simp [h]), ih]
    | some g =>
      rw [List.filterMap_cons_some h, List.filter_cons_of_pos (by simp [h])]
      cases i with
      | zero => simp [h]
      | succ i => simpa using ih i

/-- C43, the part that holds.  Let the wire polynomials be fixed, the polynomial `z` depend on `β` and `γ`, and
the quotient on `β`, `γ` and `α`, all of the degree supported by the keys.  If the verifier, given the true
evaluations of these polynomials, accepts for all challenges from a set of more than `5n` elements, the circuit can
be satisfied with the public inputs.  (The multipliers `ks`, chosen by the caller of `keygen`, have to give distinct
labels to distinct positions.)

Missing for the full statement: the verifier does not check which commitment belongs to which round, see
`C43_forgery`; and the commitment scheme is idealised. -/
theorem C43_partial {mk : Nat → Option (Domain F)} (hmk : MkOk mk) {order : List (List Wire) → List (List Wire)}
    (ho : ∀ l, (order l).Perm l) {ks : Fin 4 → F} {ops : List (Op F)} {c : Composer F} (h : run ops = some c)
    {i : Index F} (hi : index mk order c ks = .ok i)
    (hks : ∀ (p q : Fin 4 × Fin i.info.domain_n.size),
      i.info.domain_n.ω ^ p.2.1 * ks p.1 = i.info.domain_n.ω ^ q.2.1 * ks q.1 → p = q)
    {pi : List F} {w0 w1 w2 w3 : F[X]} {z : F → F → F[X]} {t0 t1 t2 t3 : F → F → F → F[X]} {S : Finset F}
    (hS : 5 * i.info.domain_n.size < S.card)
    (hdeg : ∀ β γ α, ∀ p ∈ (Msgs.mk w0 w1 w2 w3 (z β γ) (t0 β γ α) (t1 β γ α) (t2 β γ α) (t3 β γ α)).polys,
      p.2.natDegree ≤ i.info.domain_n.size)
    (hacc : ∀ β ∈ S, ∀ γ ∈ S, ∀ α ∈ S, ∀ ζ ∈ S, Accepted i pi ⟨β, γ, α, ζ⟩
      ⟨w0, w1, w2, w3, z β γ, t0 β γ α, t1 β γ α, t2 β γ α, t3 β γ α⟩) :
    Satisfiable ops pi := by
  obtain ⟨s, hs, hok, D0, h0, hn0, hω0, hv0⟩ := index_ok hmk hi
  obtain ⟨σ, hσ, hcyc⟩ := compose_perm hmk ho h hs h0
  rw [hω0] at hσ
  have b := Built.run h
  have hpos := hok.valid.pos
  have hsz := hok.size
  have hnn : i.info.n = i.info.domain_n.size := by rw [hok.n, hsz]
  set D := i.info.domain_n with hDdef
  set pi' := pi ++ List.replicate (D.size - pi.length) 0 with hpi'
  have hd : ∀ β γ α, w0.natDegree ≤ D.size ∧ w1.natDegree ≤ D.size ∧ w2.natDegree ≤ D.size ∧
      w3.natDegree ≤ D.size ∧ (z β γ).natDegree ≤ D.size ∧ (t0 β γ α).natDegree ≤ D.size ∧
      (t1 β γ α).natDegree ≤ D.size ∧ (t2 β γ α).natDegree ≤ D.size ∧ (t3 β γ α).natDegree ≤ D.size := by
    intro β γ α
    have := hdeg β γ α
    simpa [Msgs.polys] using this
  -- the identity as polynomials, hence on the domain
  have hrow : ∀ β ∈ S, ∀ γ ∈ S, ∀ α ∈ S, ∀ k < D.size,
      (checkPoly i w0 w1 w2 w3 (z β γ) (interpolate D pi') β γ α).eval (D.ω ^ k) = 0 := by
    intro β hβ γ hγ α hα k hk
    obtain ⟨d0, d1, d2, d3, dz, dt0, dt1, dt2, dt3⟩ := hd β γ α
    set m : Msgs F := ⟨w0, w1, w2, w3, z β γ, t0 β γ α, t1 β γ α, t2 β γ α, t3 β γ α⟩ with hm
    let T : F[X] := m.t0 + X ^ D.size * m.t1 + (X ^ D.size) ^ 2 * m.t2 + X ^ D.size * (X ^ D.size) ^ 2 * m.t3
    have hT : T.natDegree ≤ 4 * D.size := by
      have hx : (X ^ D.size : F[X]).natDegree ≤ D.size := natDegree_X_pow_le _
      have hx2 : ((X ^ D.size) ^ 2 : F[X]).natDegree ≤ 2 * D.size := by
        rw [pow_two]
        exact (natDegree_mul_le' hx hx).trans (by omega)
      have e1 : m.t0.natDegree ≤ 4 * D.size := by simp only [hm]; omega
      exact natDegree_add_le' (natDegree_add_le' (natDegree_add_le' e1
        ((natDegree_mul_le' hx dt1).trans (by omega))) ((natDegree_mul_le' hx2 dt2).trans (by omega)))
        ((natDegree_mul_le' (natDegree_mul_le' hx hx2) dt3).trans (by omega))
    have e : checkPoly i w0 w1 w2 w3 (z β γ) (interpolate D pi') β γ α - T * (X ^ D.size - 1) = 0 := by
      apply Marlin.eq_zero_of_many (S := S)
      · refine lt_of_le_of_lt ?_ hS
        apply natDegree_sub_le'
        · exact checkPoly_natDegree_le hok d0 d1 d2 d3 dz (interpolate_natDegree hok.valid _).le β γ α
        · refine (natDegree_mul_le' hT (b := D.size) ?_).trans (by omega)
          rw [natDegree_eq_of_degree_eq_some (Domain.degree_vanishing hok.valid)]
      · intro ζ hζ
        obtain ⟨-, -, hid⟩ := (hacc β hβ γ hγ α hα ζ hζ).identity hok.valid hnn
        dsimp only at hid
        rw [eval_sub, hid, eval_mul, hnn]
        simp only [T, tValue, eval_add, eval_mul, eval_pow, eval_X, eval_sub, eval_one]
        ring
    have := congrArg (eval (D.ω ^ k)) (sub_eq_zero.mp e)
    rw [this, eval_mul, Domain.eval_vanishing, hok.valid.vanishing_element, mul_zero]
  have hSne : S.Nonempty := Finset.card_pos.mp (by omega)
  obtain ⟨x0, hx0⟩ := hSne
  -- separate the three parts
  let W : Fin 4 → Nat → F := fun j k =>
    match j with
    | 0 => w0.eval (D.ω ^ k)
    | 1 => w1.eval (D.ω ^ k)
    | 2 => w2.eval (D.ω ^ k)
    | 3 => w3.eval (D.ω ^ k)
  have hsep : ∀ β ∈ S, ∀ γ ∈ S, ∀ k < D.size,
      (s.q_0.getD k 0 * W 0 k + s.q_1.getD k 0 * W 1 k + s.q_2.getD k 0 * W 2 k + s.q_3.getD k 0 * W 3 k
        + s.q_m.getD k 0 * W 1 k * W 2 k + s.q_c.getD k 0 + (interpolate D pi').eval (D.ω ^ k))
          * s.q_arith.getD k 0 = 0 ∧
      (W 0 k + ks 0 * β * D.ω ^ k + γ) * (W 1 k + ks 1 * β * D.ω ^ k + γ) * (W 2 k + ks 2 * β * D.ω ^ k + γ)
          * (W 3 k + ks 3 * β * D.ω ^ k + γ) * (z β γ).eval (D.ω ^ k)
        - (W 0 k + β * s.sigma_0.getD k 0 + γ) * (W 1 k + β * s.sigma_1.getD k 0 + γ)
          * (W 2 k + β * s.sigma_2.getD k 0 + γ) * (W 3 k + β * s.sigma_3.getD k 0 + γ)
          * (z β γ).eval (D.ω ^ (k + 1)) = 0 ∧
      (if k = 0 then 1 else 0) * ((z β γ).eval (D.ω ^ k) - 1) = 0 := by
    intro β hβ γ hγ k hk
    apply quadratic_zero (S := S) (by omega)
    intro α hα
    have := hrow β hβ γ hγ α hα k hk
    rw [checkPoly_element hok _ _ _ _ _ _ _ _ _ hk] at this
    exact this
  -- the copy constraints
  let id : Fin 4 × Fin s.n → F := fun p => D.ω ^ p.2.1 * ks p.1
  let w : Fin 4 × Fin s.n → F := fun p => W p.1 p.2.1
  have hprod : ∀ β ∈ S, ∀ γ ∈ S, ∏ p, (w p + β * id p + γ) = ∏ p, (w p + β * id (σ p) + γ) := by
    intro β hβ γ hγ
    let num : Nat → F := fun k => (W 0 k + ks 0 * β * D.ω ^ k + γ) * (W 1 k + ks 1 * β * D.ω ^ k + γ)
      * (W 2 k + ks 2 * β * D.ω ^ k + γ) * (W 3 k + ks 3 * β * D.ω ^ k + γ)
    let den : Nat → F := fun k => (W 0 k + β * s.sigma_0.getD k 0 + γ) * (W 1 k + β * s.sigma_1.getD k 0 + γ)
      * (W 2 k + β * s.sigma_2.getD k 0 + γ) * (W 3 k + β * s.sigma_3.getD k 0 + γ)
    have hz0 : (z β γ).eval (D.ω ^ 0) = 1 := by
      have := (hsep β hβ γ hγ 0 hpos).2.2
      rw [if_pos rfl, one_mul] at this
      exact sub_eq_zero.mp this
    have hstep : ∀ k < D.size, num k * (z β γ).eval (D.ω ^ k) = den k * (z β γ).eval (D.ω ^ (k + 1)) :=
      fun k hk => sub_eq_zero.mp (hsep β hβ γ hγ k hk).2.1
    have htel : ∀ k ≤ D.size, ∏ j ∈ Finset.range k, num j = (∏ j ∈ Finset.range k, den j) * (z β γ).eval (D.ω ^ k) := by
      intro k
      induction k with
      | zero => intro _; rw [hz0]; simp
      | succ k ih =>
        intro hk
        rw [Finset.prod_range_succ, Finset.prod_range_succ, ih (by omega)]
        linear_combination (∏ j ∈ Finset.range k, den j) * hstep k (by omega)
    have hfin := htel D.size le_rfl
    rw [hok.valid.ω_pow, ← pow_zero D.ω, hz0, mul_one, hsz, Finset.prod_range, Finset.prod_range] at hfin
    have hp : ∀ g : Fin 4 × Fin s.n → F, ∏ p, g p = ∏ k : Fin s.n, (g (0, k) * g (1, k) * g (2, k) * g (3, k)) := by
      intro g
      rw [Fintype.prod_prod_type_right]
      apply Finset.prod_congr rfl
      intro k _
      rw [Fin.prod_univ_four]
    rw [hp, hp]
    calc _ = ∏ k : Fin s.n, num k := by
          apply Finset.prod_congr rfl
          intro k _
          simp only [num, w, id]
          ring
      _ = ∏ k : Fin s.n, den k := hfin
      _ = _ := by
          apply Finset.prod_congr rfl
          intro k _
          have e : ∀ j : Fin 4, (s.sigma j).getD k.1 0 = id (σ (j, k)) := fun j => hσ (j, k)
          simp only [den, w]
          rw [← e 0, ← e 1, ← e 2, ← e 3]
          rfl
  have hinj : Function.Injective id := by
    intro p q hpq
    have hlt : s.n = D.size := hsz.symm
    have := hks (p.1, Fin.cast hlt p.2) (q.1, Fin.cast hlt q.2) hpq
    rw [Prod.mk.injEq] at this
    exact Prod.ext this.1 (Fin.cast_injective _ this.2)
  have hwσ := perm_respected σ w id hinj (by rw [← hsz]; omega) hprod
  have hsame : ∀ p q, σ.SameCycle p q → w p = w q := fun p q => sameCycle_inv σ w hwσ
  -- values of the variables
  classical
  let a : Nat → F := fun v =>
    if hv : ∃ p : Fin 4 × Fin s.n, c.varAt ⟨p.1, p.2.1⟩ = some v then w hv.choose else 0
  have ha : ∀ (p : Fin 4 × Fin s.n) v, c.varAt ⟨p.1, p.2.1⟩ = some v → w p = a v := by
    intro p v hv
    have hex : ∃ p : Fin 4 × Fin s.n, c.varAt ⟨p.1, p.2.1⟩ = some v := ⟨p, hv⟩
    simp only [a]
    rw [dif_pos hex]
    exact hsame _ _ ((hcyc _ _).mpr (.inr ⟨v, hv, hex.choose_spec⟩))
  have hle : (ops.filterMap Op.gate).length ≤ s.n := by rw [← b.n, hn0]; exact hmk.ge h0
  let wit : Witnesses F := ⟨(List.range D.size).map (W 0), (List.range D.size).map (W 1),
    (List.range D.size).map (W 2), (List.range D.size).map (W 3)⟩
  have hcol : ∀ j : Fin 4, ∀ k < D.size, ((List.range D.size).map (W j)).getD k 0 = W j k := by
    intro j k hk
    simp [List.getD_eq_getElem?_getD, hk]
  have hgates := (rows_iff b hs (fun _ _ h => hmk.ge h) wit a pi' ?_).mp ?_
  · refine ⟨a, ?_⟩
    intro k op hop
    have hg : ∃ g, op.gate = some g := by
      have := List.of_mem_filter (List.mem_of_getElem? hop)
      exact Option.isSome_iff_exists.mp this
    obtain ⟨g, hg⟩ := hg
    have hgk : (ops.filterMap Op.gate)[k]? = some g := by rw [filter_gate, hop]; exact hg
    have := hgates k g hgk
    rw [Op.gate_rel hg] at this
    have hpk : pi'.getD k 0 = pi.getD k 0 := by
      rw [hpi', List.getD_eq_getElem?_getD, List.getD_eq_getElem?_getD]
      by_cases hk : k < pi.length
      · rw [List.getElem?_append_left hk]
      · rw [List.getElem?_append_right (by omega), List.getElem?_replicate, List.getElem?_eq_none (by omega)]
        split <;> rfl
    rw [hpk] at this
    exact this
  · intro k g hg
    have hk : k < D.size := by
      have := (List.getElem?_eq_some_iff.mp hg).1
      omega
    have hv : ∀ j : Fin 4, W j k = a (g.var j) := by
      intro j
      have hvar : c.varAt ⟨j, k⟩ = some (g.var j) := by rw [b.varAt, hg]; rfl
      exact ha (j, ⟨k, by omega⟩) _ hvar
    simp only [wit]
    rw [hcol 0 k hk, hcol 1 k hk, hcol 2 k hk, hcol 3 k hk]
    exact ⟨hv 0, hv 1, hv 2, hv 3⟩
  · intro k hk
    rw [← hsz] at hk
    unfold RowHolds
    simp only [wit]
    rw [hcol 0 k hk, hcol 1 k hk, hcol 2 k hk, hcol 3 k hk]
    have := (hsep x0 hx0 x0 hx0 k hk).1
    rw [interpolate_element hok.valid _ hk] at this
    exact this

end Zkp.Plonk
