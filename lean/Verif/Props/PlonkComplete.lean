/- C75: completeness of Plonk, and an example for the soundness theorem. -/
import Verif.Props.PlonkSound

set_option linter.unusedSectionVars false
set_option linter.unusedSimpArgs false

namespace Zkp.Plonk

open Polynomial

variable {F : Type} [Field F] [DecidableEq F]

/-! ### The quotient -/

theorem nextIndex_eval {s : Selectors F} {ks : Fin 4 → F} {i : Index F} (h : IndexOk s ks i) {z : F[X]}
    (hz : z.natDegree < i.domain_4n.size) {k : Nat} (hk : k < i.domain_4n.size) :
    (onCoset i.domain_4n z).getD (nextIndex i.domain_4n.size k) 0 =
      z.eval (i.info.domain_n.ω * (i.domain_4n.g * i.domain_4n.ω ^ k)) := by
  have h4 := h.size4
  have hpos := h.valid4.pos
  have hω := h.ω4
  rw [← hω]
  unfold nextIndex
  rw [h4, Nat.mul_div_cancel_left _ (by omega : 0 < 4)]
  split
  · rename_i hq
    rw [onCoset_getD hz (by omega)]
    congr 1
    have e : k + 4 = i.domain_4n.size + k % 4 := by omega
    have : i.domain_4n.ω ^ (k % 4) = i.domain_4n.ω ^ (k + 4) := by rw [e, pow_add, h.valid4.ω_pow, one_mul]
    rw [this, pow_add]
    ring
  · rw [onCoset_getD hz (by omega)]
    congr 1
    rw [pow_add]
    ring

/-- If the identity holds on the domain, the prover's quotient is the quotient. -/
theorem quotient_eq {s : Selectors F} {ks : Fin 4 → F} {i : Index F} (h : IndexOk s ks i) (pi : List F)
    {w0 w1 w2 w3 z : F[X]} (h0 : w0.natDegree < i.info.domain_n.size) (h1 : w1.natDegree < i.info.domain_n.size)
    (h2 : w2.natDegree < i.info.domain_n.size) (h3 : w3.natDegree < i.info.domain_n.size)
    (hz : z.natDegree < i.info.domain_n.size) (β γ α : F)
    (hzero : ∀ k < i.info.domain_n.size,
      (checkPoly i w0 w1 w2 w3 z (interpolate i.info.domain_n pi) β γ α).eval (i.info.domain_n.ω ^ k) = 0) :
    polyOf (quotient i pi w0 w1 w2 w3 z β γ α) * (X ^ i.info.domain_n.size - 1) =
      checkPoly i w0 w1 w2 w3 z (interpolate i.info.domain_n pi) β γ α := by
  have hsz := h.size
  have h4 := h.size4
  obtain ⟨t, htdeg, ht⟩ := exists_quotient h.valid
    (checkPoly_natDegree h h0 h1 h2 h3 hz (interpolate_natDegree h.valid pi) β γ α) hzero
  have key : polyOf (quotient i pi w0 w1 w2 w3 z β γ α) = t := by
    have hlen : (quotient i pi w0 w1 w2 w3 z β γ α).length = i.domain_4n.size := by
      unfold quotient
      simp
    apply h.valid4.eq_of_agree_coset
    · have := polyOf_degree (quotient i pi w0 w1 w2 w3 z β γ α)
      rwa [hlen] at this
    · refine lt_of_le_of_lt degree_le_natDegree ?_
      rw [h4]
      have : t.natDegree < 4 * s.n := by rw [← hsz]; exact htdeg
      exact_mod_cast this
    · intro k hk
      have hc : ∀ {p : F[X]}, p.natDegree < i.info.domain_n.size →
          (onCoset i.domain_4n p).getD k 0 = p.eval (i.domain_4n.g * i.domain_4n.ω ^ k) := by
        intro p hp
        exact onCoset_getD (by omega) hk
      have hq : ∀ v, (keyPoly i.info.domain_n i.domain_4n v).coset.getD k 0 =
          (keyPoly i.info.domain_n i.domain_4n v).poly.eval (i.domain_4n.g * i.domain_4n.ω ^ k) :=
        fun v => hc (interpolate_natDegree h.valid v)
      have hq' : ∀ (K : KeyPoly F) (v : List F), K = keyPoly i.info.domain_n i.domain_4n v →
          K.coset.getD k 0 = K.poly.eval (i.domain_4n.g * i.domain_4n.ω ^ k) := by
        rintro _ v rfl
        exact hq v
      have e0 := hq' i.q_0 _ h.q_0
      have e1 := hq' i.q_1 _ h.q_1
      have e2 := hq' i.q_2 _ h.q_2
      have e3 := hq' i.q_3 _ h.q_3
      have em := hq' i.q_m _ h.q_m
      have ec := hq' i.q_c _ h.q_c
      have ea := hq' i.q_arith _ h.q_arith
      have s0 := hq' i.sigma_0 _ h.sigma_0
      have s1 := hq' i.sigma_1 _ h.sigma_1
      have s2 := hq' i.sigma_2 _ h.sigma_2
      have s3 := hq' i.sigma_3 _ h.sigma_3
      have hl : i.l1_4n.getD k 0 =
          (firstLagrangePoly i.info.domain_n).eval (i.domain_4n.g * i.domain_4n.ω ^ k) := by
        rw [h.l1]
        exact hc (interpolate_natDegree h.valid _)
      have hlin : (i.domain_4n.cosetFft [0, 1]).getD k 0 = i.domain_4n.g * i.domain_4n.ω ^ k := by
        have hp := h.valid.pos
        rw [Domain.Valid.cosetFft_eq_eval _ (by simp; omega) hk, polyOf_eval]
        simp [Finset.sum_range_succ]
      unfold quotient
      dsimp only
      rw [h.valid4.eval_cosetIfft _ hk, List.getD_eq_getElem?_getD, List.getElem?_map,
        List.getElem?_eq_getElem (by simpa using hk), Option.map_some, Option.getD_some, List.getElem_range, h.v k hk]
      have hv : (i.domain_4n.g * i.domain_4n.ω ^ k) ^ i.info.domain_n.size - 1 ≠ 0 := by
        intro hv
        have h1 := sub_eq_zero.mp hv
        apply h.valid4.coset
        calc i.domain_4n.g ^ i.domain_4n.size = (i.domain_4n.g * i.domain_4n.ω ^ k) ^ i.domain_4n.size := by
              rw [mul_pow, ← pow_mul, mul_comm k, pow_mul, h.valid4.ω_pow, one_pow, mul_one]
          _ = 1 := by rw [h4, ← hsz, mul_comm 4, pow_mul, h1, one_pow]
      have := congrArg (eval (i.domain_4n.g * i.domain_4n.ω ^ k)) ht
      rw [eval_mul, eval_sub, eval_pow, eval_X, eval_one] at this
      rw [mul_inv_eq_iff_eq_mul₀ hv, ← this]
      unfold arithQuotient permQuotient
      dsimp only
      rw [e0, e1, e2, e3, em, ec, ea, s0, s1, s2, s3, hl, hlin, hc h0, hc h1, hc h2, hc h3, hc hz,
        hc (interpolate_natDegree h.valid pi), nextIndex_eval h (by omega) hk]
      unfold checkPoly arithPoly numPoly denPoly arithEvaluate
      simp only [eval_add, eval_mul, eval_sub, eval_C, eval_X, eval_one, eval_comp]
      have hel : i.info.domain_n.element 1 = i.info.domain_n.ω := by simp [Domain.element]
      rw [hel]
      split
      · rename_i hq0
        rw [hq0]
        ring
      · ring
  rw [key, ht]

/-! ### The running product -/

theorem runningProduct_getD (acc : F) (ps : List F) {k : Nat} (hk : k < ps.length) :
    (runningProduct acc ps).getD k 0 = acc * ∏ j ∈ Finset.range k, ps.getD j 0 := by
  induction ps generalizing acc k with
  | nil => simp at hk
  | cons p ps ih =>
    cases ps with
    | nil =>
      have : k = 0 := by simpa using hk
      subst this
      simp [runningProduct]
    | cons q ps =>
      cases k with
      | zero => simp [runningProduct]
      | succ k =>
        rw [runningProduct.eq_3 _ _ _ (by simp), List.getD_cons_succ, ih (acc * p) (by simpa using hk),
          Finset.prod_range_succ']
        simp only [List.getD_cons_succ, List.getD_cons_zero]
        ring

theorem mapM_ok {α β ε : Type} {f : α → Except ε β} {g : α → β} {l : List α} (h : ∀ a ∈ l, f a = .ok (g a)) :
    l.mapM f = .ok (l.map g) := by
  induction l with
  | nil => rfl
  | cons a l ih =>
    rw [List.mapM_cons, h a (by simp), ih fun b hb => h b (by simp [hb])]
    rfl

theorem mapM_mem {α β ε : Type} {f : α → Except ε β} {l : List α} {r : List β} (h : l.mapM f = .ok r) :
    ∀ a ∈ l, ∃ b, f a = .ok b := by
  induction l generalizing r with
  | nil => simp
  | cons a l ih =>
    rw [List.mapM_cons] at h
    obtain ⟨b, hb, h⟩ := except_bind h
    obtain ⟨bs, hbs, h⟩ := except_bind h
    intro x hx
    rw [List.mem_cons] at hx
    rcases hx with rfl | hx
    · exact ⟨b, hb⟩
    · exact ih hbs x hx

/-- The two products of a row. -/
def numAt (i : Index F) (w : Witnesses F) (β γ : F) (k : Nat) : F :=
  (w.w_0.getD k 0 + i.info.ks 0 * β * i.info.domain_n.ω ^ k + γ)
    * (w.w_1.getD k 0 + i.info.ks 1 * β * i.info.domain_n.ω ^ k + γ)
    * (w.w_2.getD k 0 + i.info.ks 2 * β * i.info.domain_n.ω ^ k + γ)
    * (w.w_3.getD k 0 + i.info.ks 3 * β * i.info.domain_n.ω ^ k + γ)

/-- See `numAt`. -/
def denAt (i : Index F) (w : Witnesses F) (β γ : F) (k : Nat) : F :=
  (w.w_0.getD k 0 + β * i.sigma_0.evals.getD k 0 + γ) * (w.w_1.getD k 0 + β * i.sigma_1.evals.getD k 0 + γ)
    * (w.w_2.getD k 0 + β * i.sigma_2.evals.getD k 0 + γ) * (w.w_3.getD k 0 + β * i.sigma_3.evals.getD k 0 + γ)

theorem permRatio_eq (i : Index F) (w : Witnesses F) (β γ : F) {k : Nat} (hk : k < i.info.domain_n.size) :
    permRatio i ((List.range i.info.domain_n.size).map i.info.domain_n.element) w.w_0 w.w_1 w.w_2 w.w_3 β γ k =
      (invOrPanic (denAt i w β γ k)).map (numAt i w β γ k * ·) := by
  have hroot : ((List.range i.info.domain_n.size).map i.info.domain_n.element).getD k 0 = i.info.domain_n.ω ^ k := by
    rw [List.getD_eq_getElem?_getD, List.getElem?_map, List.getElem?_range hk]
    rfl
  unfold permRatio
  dsimp only
  rw [hroot]
  unfold denAt numAt
  generalize hx : invOrPanic (F := F) _ = x
  cases x <;> rfl

/-- The running product is computed when no denominator vanishes and the products agree. -/
theorem computeZ_ok {i : Index F} (hD : i.info.domain_n.Valid) {w : Witnesses F} {β γ : F}
    (hden : ∀ k < i.info.domain_n.size, denAt i w β γ k ≠ 0)
    (hprod : ∏ k ∈ Finset.range i.info.domain_n.size, numAt i w β γ k =
      ∏ k ∈ Finset.range i.info.domain_n.size, denAt i w β γ k) :
    ∃ z, computeZ i w.w_0 w.w_1 w.w_2 w.w_3 β γ = .ok z ∧ ∀ k < i.info.domain_n.size,
      z.getD k 0 = ∏ j ∈ Finset.range k, (numAt i w β γ j * (denAt i w β γ j)⁻¹) := by
  set n := i.info.domain_n.size with hn
  have hpos : 0 < n := hD.pos
  have hm : (List.range n).mapM (permRatio i ((List.range n).map i.info.domain_n.element) w.w_0 w.w_1 w.w_2
      w.w_3 β γ) = .ok ((List.range n).map fun k => numAt i w β γ k * (denAt i w β γ k)⁻¹) := by
    apply mapM_ok
    intro k hk
    rw [List.mem_range] at hk
    rw [permRatio_eq i w β γ hk]
    unfold invOrPanic
    rw [if_neg (hden k hk)]
    rfl
  have hget : ∀ k < n, ((List.range n).map fun k => numAt i w β γ k * (denAt i w β γ k)⁻¹).getD k 0 =
      numAt i w β γ k * (denAt i w β γ k)⁻¹ := by
    intro k hk
    rw [List.getD_eq_getElem?_getD, List.getElem?_map, List.getElem?_range hk]
    rfl
  have hz : ∀ k < n, (runningProduct 1 ((List.range n).map fun k => numAt i w β γ k * (denAt i w β γ k)⁻¹)).getD k 0 =
      ∏ j ∈ Finset.range k, (numAt i w β γ j * (denAt i w β γ j)⁻¹) := by
    intro k hk
    rw [runningProduct_getD _ _ (by simpa using hk), one_mul]
    apply Finset.prod_congr rfl
    intro j hj
    rw [Finset.mem_range] at hj
    exact hget j (by omega)
  refine ⟨_, ?_, hz⟩
  unfold computeZ
  dsimp only
  rw [← hn, hm]
  simp only [bind, Except.bind]
  rw [if_pos]
  rw [hz _ (by omega), hget _ (by omega), ← Finset.prod_range_succ, show n - 1 + 1 = n by omega,
    Finset.prod_mul_distrib, hprod, ← Finset.prod_mul_distrib]
  apply Finset.prod_eq_one
  intro k hk
  rw [Finset.mem_range] at hk
  exact mul_inv_cancel₀ (hden k hk)

theorem computeZ_den {i : Index F} {w : Witnesses F} {β γ : F} {z : List F}
    (h : computeZ i w.w_0 w.w_1 w.w_2 w.w_3 β γ = .ok z) : ∀ k < i.info.domain_n.size, denAt i w β γ k ≠ 0 := by
  intro k hk
  unfold computeZ at h
  obtain ⟨ps, hps, h⟩ := except_bind h
  obtain ⟨b, hb⟩ := mapM_mem hps k (by simpa using hk)
  rw [permRatio_eq i w β γ hk] at hb
  intro h0
  unfold invOrPanic at hb
  rw [if_pos h0] at hb
  cases hb

/-- Values that come from values of the variables give equal products. -/
theorem products_eq {mk : Nat → Option (Domain F)} (hmk : MkOk mk) {order : List (List Wire) → List (List Wire)}
    (ho : ∀ l, (order l).Perm l) {ks : Fin 4 → F} {ops : List (Op F)} {c : Composer F} (h : run ops = some c)
    {s : Selectors F} (hs : c.compose mk order ks = .ok s) {i : Index F} (hok : IndexOk s ks i) {D0 : Domain F}
    (h0 : mk c.n = some D0) (hω0 : D0.ω = i.info.domain_n.ω) {w : Witnesses F} {a : Nat → F}
    (hw : ∀ (p : Fin 4 × Fin s.n), (match p.1 with
      | 0 => w.w_0
      | 1 => w.w_1
      | 2 => w.w_2
      | 3 => w.w_3).getD p.2.1 0 = ((c.varAt ⟨p.1, p.2.1⟩).map a).getD 0) (β γ : F) :
    ∏ k ∈ Finset.range i.info.domain_n.size, numAt i w β γ k =
      ∏ k ∈ Finset.range i.info.domain_n.size, denAt i w β γ k := by
  obtain ⟨σ, hσ, hcyc⟩ := compose_perm hmk ho h hs h0
  rw [hω0] at hσ
  have hsz := hok.size
  let W : Fin 4 × Fin s.n → F := fun p => ((c.varAt ⟨p.1, p.2.1⟩).map a).getD 0
  have hW : ∀ p, W (σ p) = W p := by
    intro p
    rcases (hcyc p (σ p)).mp (Equiv.Perm.sameCycle_apply_right.mpr (Equiv.Perm.SameCycle.refl _ _)) with e | ⟨v, e1, e2⟩
    · rw [← e]
    · simp only [W]; rw [e1, e2]
  let f : Fin 4 × Fin s.n → F := fun p => W p + ks p.1 * β * i.info.domain_n.ω ^ p.2.1 + γ
  rw [hsz, Finset.prod_range, Finset.prod_range]
  have e1 : ∀ k : Fin s.n, numAt i w β γ k = f (0, k) * f (1, k) * f (2, k) * f (3, k) := by
    intro k
    unfold numAt
    rw [hok.ks]
    have a0 := hw (0, k)
    have a1 := hw (1, k)
    have a2 := hw (2, k)
    have a3 := hw (3, k)
    dsimp only at a0 a1 a2 a3
    rw [a0, a1, a2, a3]
  have e2 : ∀ k : Fin s.n, denAt i w β γ k = f (σ (0, k)) * f (σ (1, k)) * f (σ (2, k)) * f (σ (3, k)) := by
    intro k
    have a0 := hw (0, k)
    have a1 := hw (1, k)
    have a2 := hw (2, k)
    have a3 := hw (3, k)
    dsimp only at a0 a1 a2 a3
    have hf : ∀ j : Fin 4, ((c.varAt ⟨j, k.1⟩).map a).getD 0 + β * (s.sigma j).getD k.1 0 + γ = f (σ (j, k)) := by
      intro j
      have := hσ (j, k)
      dsimp only at this
      rw [this]
      have h2 := hW (j, k)
      simp only [f]
      rw [h2]
      simp only [W]
      ring
    unfold denAt
    rw [a0, a1, a2, a3, hok.sigma_0, hok.sigma_1, hok.sigma_2, hok.sigma_3, ← hf 0, ← hf 1, ← hf 2, ← hf 3]
    rfl
  simp only [e1, e2]
  rw [prod_sigma σ f]

/-! ### Completeness -/

/-- What the prover of C75 does when no denominator vanishes: it finishes with polynomials that satisfy the
identity at every point. -/
theorem prove_core {mk : Nat → Option (Domain F)} (hmk : MkOk mk) {order : List (List Wire) → List (List Wire)}
    (ho : ∀ l, (order l).Perm l) {ks : Fin 4 → F} {ops : List (Op F)} {c : Composer F} (h : run ops = some c)
    {pc : PC F} (hpc : pc.Complete) (rng : FsRng F pc.Comm) {maxDegree : Nat} {pk : ProverKey F pc}
    {vk : VerifierKey F pc} (hk : keygen mk order pc maxDegree c ks = .ok (pk, vk))
    (hall : ∀ op ∈ ops, op.Holds fun v => (0 :: ops.filterMap Op.value).getD v 0) :
    ∃ i w, index mk order c ks = .ok i ∧ pk = ⟨vk, i⟩ ∧ c.synthesize mk = .ok w ∧
      c.pi.length ≤ i.info.domain_n.size ∧
      ∀ c1, c1 = (witnessPolys i w).map (fun p => pc.commit i.info.n p.2) →
      (∀ k < i.info.domain_n.size,
        denAt i w (rng [.seed c.pi, .comms c1] 0) (rng [.seed c.pi, .comms c1] 1) k ≠ 0) →
      ∃ c2 c3 m, prove mk pc rng pk c =
          finish pc rng ⟨vk, i⟩ [.seed c.pi, .comms c1, .comms c2, .comms c3] c1 c2 c3
            (i.polys ++ Msgs.polys m) (challenges pc rng c.pi c1 c2 c3) ∧
        (c1 ++ c2 ++ c3 = m.polys.map fun p => pc.commit i.info.n p.2) ∧
        (∀ p ∈ i.polys ++ m.polys, p.2.natDegree ≤ i.info.n) ∧
        (checkPoly i m.w0 m.w1 m.w2 m.w3 m.z
          (interpolate i.info.domain_n (c.pi ++ List.replicate (i.info.domain_n.size - c.pi.length) 0))
          (challenges pc rng c.pi c1 c2 c3).beta (challenges pc rng c.pi c1 c2 c3).gamma
          (challenges pc rng c.pi c1 c2 c3).alpha).eval (challenges pc rng c.pi c1 c2 c3).zeta =
        tValue i.info.n m (challenges pc rng c.pi c1 c2 c3).zeta
          * ((challenges pc rng c.pi c1 c2 c3).zeta ^ i.info.domain_n.size - 1) := by
  obtain ⟨i, hi, hpk, hvk⟩ := keygen_ok hk
  obtain ⟨s, hs, hok, D0, h0, hn0, hω0, hv0⟩ := index_ok hmk hi
  have b := Built.run h
  obtain ⟨w, hw, hrows⟩ := C40 hmk h hs
  have hallrows := hrows.mpr hall
  have hweq := hw
  rw [synthesize_ok b h0] at hweq
  have hweq := Except.ok.inj hweq
  have hpos := hok.valid.pos
  have hsz := hok.size
  have hnn : i.info.n = i.info.domain_n.size := by rw [hok.n, hsz]
  have hinfo : vk.info = i.info := by rw [hvk]
  have hdeg : vk.degree = i.info.n := by rw [hvk]
  set D := i.info.domain_n with hDdef
  have hpilen : c.pi.length ≤ D.size := by
    rw [b.pi, List.length_map, ← b.n, hsz, hn0]
    exact hmk.ge h0
  set vals := 0 :: ops.filterMap Op.value with hvals
  have hcol : ∀ (p : Fin 4 × Fin s.n), (match p.1 with
      | 0 => w.w_0
      | 1 => w.w_1
      | 2 => w.w_2
      | 3 => w.w_3).getD p.2.1 0 = ((c.varAt ⟨p.1, p.2.1⟩).map fun v => vals.getD v 0).getD 0 := by
    rintro ⟨j, k⟩
    rw [b.varAt, ← hweq]
    dsimp only
    rw [Option.map_map]
    fin_cases j <;> exact getD_pad _ _ _ _
  -- the rounds
  set pi' := c.pi ++ List.replicate (D.size - c.pi.length) 0 with hpi'
  let commit : List (String × F[X]) → List pc.Comm := fun ps => ps.map fun p => pc.commit pk.vk.degree p.2
  have hdegpk : pk.vk.degree = i.info.n := by rw [hpk]; exact hdeg
  refine ⟨i, w, hi, hpk, hw, hpilen, ?_⟩
  intro c1 hc1' hden
  have hc1 : c1 = commit (witnessPolys i w) := by rw [hc1']; simp only [commit, hdegpk]
  set β := rng [.seed c.pi, .comms c1] 0 with hβ
  set γ := rng [.seed c.pi, .comms c1] 1 with hγ
  have hprod := products_eq hmk ho h hs hok h0 hω0 (a := fun v => vals.getD v 0) hcol β γ
  obtain ⟨z, hz, hzval⟩ := computeZ_ok hok.valid hden hprod
  let c2 := commit [("z", interpolate D z)]
  let α := rng [.seed c.pi, .comms c1, .comms c2] 0
  let W0 := interpolate D w.w_0
  let W1 := interpolate D w.w_1
  let W2 := interpolate D w.w_2
  let W3 := interpolate D w.w_3
  let Z := interpolate D z
  have hWd : ∀ v, (interpolate D v).natDegree < D.size := interpolate_natDegree hok.valid
  have hzn : ∀ k ≤ D.size, Z.eval (D.ω ^ k) = ∏ j ∈ Finset.range k, (numAt i w β γ j * (denAt i w β γ j)⁻¹) := by
    intro k hk
    by_cases hk' : k = D.size
    · rw [hk', hok.valid.ω_pow, ← pow_zero D.ω, interpolate_element hok.valid _ hpos, hzval 0 hpos,
        Finset.range_zero, Finset.prod_empty, Finset.prod_mul_distrib, hprod, ← Finset.prod_mul_distrib]
      symm
      apply Finset.prod_eq_one
      intro j hj
      exact mul_inv_cancel₀ (hden j (Finset.mem_range.mp hj))
    · have hk2 : k < D.size := by omega
      rw [interpolate_element hok.valid _ hk2, hzval k hk2]
  have hzero : ∀ k < D.size, (checkPoly i W0 W1 W2 W3 Z (interpolate D pi') β γ α).eval (D.ω ^ k) = 0 := by
    intro k hk
    rw [checkPoly_element hok _ _ _ _ _ _ _ _ _ hk, hzn k (by omega), hzn (k + 1) (by omega),
      Finset.prod_range_succ]
    have hd := hden k hk
    have hrow := hallrows k (by rw [← hsz]; exact hk)
    unfold RowHolds at hrow
    have hpk' : pi'.getD k 0 = c.pi.getD k 0 := by
      rw [hpi', List.getD_eq_getElem?_getD, List.getD_eq_getElem?_getD]
      by_cases hk : k < c.pi.length
      · rw [List.getElem?_append_left hk]
      · rw [List.getElem?_append_right (by omega), List.getElem?_replicate, List.getElem?_eq_none (by omega)]
        split <;> rfl
    rw [← hpk'] at hrow
    have he : ∀ v, (interpolate D v).eval (D.ω ^ k) = v.getD k 0 := fun v => interpolate_element hok.valid v hk
    simp only [W0, W1, W2, W3]
    rw [he, he, he, he, he, hrow]
    have hnumk : numAt i w β γ k = (w.w_0.getD k 0 + ks 0 * β * D.ω ^ k + γ)
        * (w.w_1.getD k 0 + ks 1 * β * D.ω ^ k + γ) * (w.w_2.getD k 0 + ks 2 * β * D.ω ^ k + γ)
        * (w.w_3.getD k 0 + ks 3 * β * D.ω ^ k + γ) := by
      unfold numAt
      rw [hok.ks]
    have hdenk : denAt i w β γ k = (w.w_0.getD k 0 + β * s.sigma_0.getD k 0 + γ)
        * (w.w_1.getD k 0 + β * s.sigma_1.getD k 0 + γ) * (w.w_2.getD k 0 + β * s.sigma_2.getD k 0 + γ)
        * (w.w_3.getD k 0 + β * s.sigma_3.getD k 0 + γ) := by
      unfold denAt
      rw [hok.sigma_0, hok.sigma_1, hok.sigma_2, hok.sigma_3]
      rfl
    rw [← hnumk, ← hdenk]
    have hlast : (if k = 0 then (1 : F) else 0)
        * (∏ j ∈ Finset.range k, numAt i w β γ j * (denAt i w β γ j)⁻¹ - 1) = 0 := by
      split
      · rename_i hk0
        subst hk0
        simp
      · simp
    rw [hlast]
    field_simp
    ring
  let t := quotient i pi' W0 W1 W2 W3 Z β γ α
  have ht : polyOf t * (X ^ D.size - 1) = checkPoly i W0 W1 W2 W3 Z (interpolate D pi') β γ α :=
    quotient_eq hok pi' (hWd _) (hWd _) (hWd _) (hWd _) (hWd _) β γ α hzero
  have htlen : t.length ≤ 4 * D.size := by
    simp only [t]
    unfold quotient
    simp only [Domain.cosetIfft_length]
    rw [hok.size4, hsz]
  let q := quadSplit D.size t
  let m : Msgs F := ⟨W0, W1, W2, W3, Z, q.1, q.2.1, q.2.2.1, q.2.2.2⟩
  let c3 := commit (quotientPolys D.size t)
  refine ⟨c2, c3, m, ?_, ?_, ?_, ?_⟩
  · unfold prove
    dsimp only
    rw [hpk]
    dsimp only
    rw [← hDdef, padToSize_ok hpilen, hw]
    simp only [liftCs, bind, Except.bind]
    have hz' := hz
    simp only [hβ, hγ, hc1, commit] at hz'
    rw [hpk] at hz'
    dsimp only at hz'
    rw [hz']
    simp only [c2, c3, t, challenges, hc1, commit, hpk, List.append_assoc, hβ, hγ, α, m, q, W0, W1, W2, W3, Z]
    rfl
  · simp only [c2, c3, hc1, commit, hdegpk]
    rfl
  · intro p hp
    rw [List.mem_append] at hp
    rw [hnn]
    rcases hp with hp | hp
    · exact (hok.polys_natDegree hp).le
    · have hch := fun p => (C42 hpos t htlen 0).2 p
      simp only [Msgs.polys, m, List.mem_cons, List.not_mem_nil, or_false] at hp
      rcases hp with rfl | rfl | rfl | rfl | rfl | rfl | rfl | rfl | rfl
      · exact (hWd _).le
      · exact (hWd _).le
      · exact (hWd _).le
      · exact (hWd _).le
      · exact (hWd _).le
      · exact (hch ("t_0", q.1) (by simp [quotientPolys, q])).le
      · exact (hch ("t_1", q.2.1) (by simp [quotientPolys, q])).le
      · exact (hch ("t_2", q.2.2.1) (by simp [quotientPolys, q])).le
      · exact (hch ("t_3", q.2.2.2) (by simp [quotientPolys, q])).le
  · rw [hnn, tValue_eq htlen (m := m) rfl rfl rfl rfl]
    have := congrArg (eval (challenges pc rng c.pi c1 c2 c3).zeta) ht
    rw [eval_mul, eval_sub, eval_pow, eval_X, eval_one] at this
    exact this.symm

/-- A proof returned by the prover of C75 comes from such polynomials, with `ζ ≠ 1`. -/
theorem prove_inv {mk : Nat → Option (Domain F)} (hmk : MkOk mk) {order : List (List Wire) → List (List Wire)}
    (ho : ∀ l, (order l).Perm l) {ks : Fin 4 → F} {ops : List (Op F)} {c : Composer F} (h : run ops = some c)
    {pc : PC F} (hpc : pc.Complete) (rng : FsRng F pc.Comm) {maxDegree : Nat} {pk : ProverKey F pc}
    {vk : VerifierKey F pc} (hk : keygen mk order pc maxDegree c ks = .ok (pk, vk))
    (hall : ∀ op ∈ ops, op.Holds fun v => (0 :: ops.filterMap Op.value).getD v 0)
    {pf : Proof F pc} (hpf : prove mk pc rng pk c = .ok pf) :
    ∃ i c1 c2 c3 m, index mk order c ks = .ok i ∧ pk = ⟨vk, i⟩ ∧ c.pi.length ≤ i.info.domain_n.size ∧
      finish pc rng ⟨vk, i⟩ [.seed c.pi, .comms c1, .comms c2, .comms c3] c1 c2 c3
        (i.polys ++ Msgs.polys m) (challenges pc rng c.pi c1 c2 c3) = .ok pf ∧
      (challenges pc rng c.pi c1 c2 c3).zeta ≠ 1 ∧
      (c1 ++ c2 ++ c3 = m.polys.map fun p => pc.commit i.info.n p.2) ∧
      (∀ p ∈ i.polys ++ m.polys, p.2.natDegree ≤ i.info.n) ∧
      (checkPoly i m.w0 m.w1 m.w2 m.w3 m.z
        (interpolate i.info.domain_n (c.pi ++ List.replicate (i.info.domain_n.size - c.pi.length) 0))
        (challenges pc rng c.pi c1 c2 c3).beta (challenges pc rng c.pi c1 c2 c3).gamma
        (challenges pc rng c.pi c1 c2 c3).alpha).eval (challenges pc rng c.pi c1 c2 c3).zeta =
      tValue i.info.n m (challenges pc rng c.pi c1 c2 c3).zeta
        * ((challenges pc rng c.pi c1 c2 c3).zeta ^ i.info.domain_n.size - 1) := by
  obtain ⟨i, w, hi, hpk, hw, hpilen, main⟩ := prove_core hmk ho h hpc rng hk hall
  obtain ⟨i', hi', hpk', hvk⟩ := keygen_ok hk
  have hii : i' = i := Except.ok.inj (hi'.symm.trans hi)
  subst hii
  have hdegpk : pk.vk.degree = i'.info.n := by rw [hpk, hvk]
  have hden : ∀ k < i'.info.domain_n.size, denAt i' w
      (rng [.seed c.pi, .comms ((witnessPolys i' w).map (fun p => pc.commit i'.info.n p.2))] 0)
      (rng [.seed c.pi, .comms ((witnessPolys i' w).map (fun p => pc.commit i'.info.n p.2))] 1) k ≠ 0 := by
    have hpf' := hpf
    unfold prove at hpf'
    dsimp only at hpf'
    rw [hdegpk] at hpf'
    rw [hpk] at hpf'
    dsimp only at hpf'
    obtain ⟨_, hp1, hpf'⟩ := except_bind hpf'
    obtain ⟨w', hw', hpf'⟩ := except_bind hpf'
    have hw' := liftCs_ok hw'
    rw [hw] at hw'
    have := Except.ok.inj hw'
    subst this
    obtain ⟨z, hz, -⟩ := except_bind hpf'
    exact computeZ_den hz
  obtain ⟨c2, c3, m, hp, h1, h2, h3⟩ := main _ rfl hden
  rw [hp] at hpf
  refine ⟨i', _, c2, c3, m, hi, hpk, hpilen, hpf, ?_, h1, h2, h3⟩
  unfold finish at hpf
  obtain ⟨lcs, hl, -⟩ := except_bind hpf
  unfold linearCombinations at hl
  obtain ⟨_, -, hl⟩ := except_bind hl
  obtain ⟨_, -, hl⟩ := except_bind hl
  obtain ⟨_, -, hl⟩ := except_bind hl
  obtain ⟨_, -, hl⟩ := except_bind hl
  obtain ⟨_, -, hl⟩ := except_bind hl
  obtain ⟨_, -, hl⟩ := except_bind hl
  obtain ⟨_, -, hl⟩ := except_bind hl
  obtain ⟨_, -, hl⟩ := except_bind hl
  obtain ⟨_, -, hl⟩ := except_bind hl
  obtain ⟨_, hperm, hl⟩ := except_bind hl
  unfold permTerms at hperm
  obtain ⟨l1, hl1, -⟩ := except_bind hperm
  exact firstLagrange_ne hl1

/-- C75.  For a circuit whose assigned values satisfy every call, any order of the variable map and any random
generator: every proof returned by the prover is accepted with the circuit's public inputs; and the prover
returns one, if no denominator of the running product vanishes and the challenge `ζ` is not one. -/
theorem C75 {mk : Nat → Option (Domain F)} (hmk : MkOk mk) {order : List (List Wire) → List (List Wire)}
    (ho : ∀ l, (order l).Perm l) {ks : Fin 4 → F} {ops : List (Op F)} {c : Composer F} (h : run ops = some c)
    {pc : PC F} (hpc : pc.Complete) (rng : FsRng F pc.Comm) {maxDegree : Nat} {pk : ProverKey F pc}
    {vk : VerifierKey F pc} (hk : keygen mk order pc maxDegree c ks = .ok (pk, vk))
    (hall : ∀ op ∈ ops, op.Holds fun v => (0 :: ops.filterMap Op.value).getD v 0) :
    (∀ pf, prove mk pc rng pk c = .ok pf → verify pc rng vk c.pi pf = .ok true) ∧
    ∃ w, c.synthesize mk = .ok w ∧ ∀ c1, c1 = (witnessPolys pk.index w).map (fun p => pc.commit vk.degree p.2) →
      (∀ k < vk.info.domain_n.size,
        denAt pk.index w (rng [.seed c.pi, .comms c1] 0) (rng [.seed c.pi, .comms c1] 1) k ≠ 0) →
      (∀ c2 c3, rng [.seed c.pi, .comms c1, .comms c2, .comms c3] 0 ≠ 1) → ∃ pf, prove mk pc rng pk c = .ok pf := by
  obtain ⟨i, w, hi, hpk, hw, hpilen, main⟩ := prove_core hmk ho h hpc rng hk hall
  obtain ⟨i', hi', hpk', hvk⟩ := keygen_ok hk
  have hii : i' = i := Except.ok.inj (hi'.symm.trans hi)
  subst hii
  obtain ⟨s, hs, hok, -⟩ := index_ok hmk hi
  have hnn : i'.info.n = i'.info.domain_n.size := by rw [hok.n, hok.size]
  constructor
  · intro pf hpf
    obtain ⟨j, c1, c2, c3, m, hj, -, -, hf, hζ, h1, h2, h3⟩ := prove_inv hmk ho h hpc rng hk hall hpf
    have hjj : j = i' := Except.ok.inj (hj.symm.trans hi)
    subst hjj
    obtain ⟨pf', h4, -, h5⟩ := accept hpc rng hvk hnn hok.valid hpilen m h1 h2 hζ h3
    rw [hf] at h4
    rw [Except.ok.inj h4]
    exact h5
  · refine ⟨w, hw, ?_⟩
    rintro c1 hc1 hden hζ
    have hinfo : vk.info = i'.info := by rw [hvk]
    have hdeg : vk.degree = i'.info.n := by rw [hvk]
    rw [hinfo, hpk] at hden
    rw [hpk, hdeg] at hc1
    obtain ⟨c2, c3, m, hp, h1, h2, h3⟩ := main c1 hc1 hden
    obtain ⟨pf, h4, -, -⟩ := accept hpc rng hvk hnn hok.valid hpilen m h1 h2 (hζ c2 c3) h3
    exact ⟨pf, hp.trans h4⟩

/-! ### Examples -/

open Ex17 in
/-- `3 · 3 = 9`, and 9 is a public input. -/
def goodOps : List (Op F17) := [.alloc 3, .alloc 9, .mul 1 1 2 none 1 0 0, .const 2 0 9]

open Ex17 in
/-- The composed circuit. -/
def goodSel : Selectors F17 :=
  ⟨2, [0, 0], [0, 1], [0, 0], [16, 0], [1, 0], [0, 0], [1, 1], [16, 1], [4, 5], [3, 14], [12, 13]⟩

open Ex17 in
/-- All hypotheses of C75 are met by a circuit with two gates, and its prover returns a proof. -/
theorem good_case : ∃ c pk vk pf, run goodOps = some c ∧
    keygen mkAll id (idealPc : PC F17) 2 c ![1, 3, 4, 5] = .ok (pk, vk) ∧
    (∀ op ∈ goodOps, op.Holds fun v => (0 :: goodOps.filterMap Op.value).getD v 0) ∧
    prove mkAll idealPc exRng pk c = .ok pf ∧ verify idealPc exRng vk c.pi pf = .ok true := by
  have hc : ∃ c, run goodOps = some c ∧ c.compose mkAll id ![1, 3, 4, 5] = .ok goodSel ∧
      c.synthesize mkAll = .ok ⟨[0, 0], [3, 9], [3, 9], [9, 9]⟩ := ⟨_, rfl, rfl, rfl⟩
  obtain ⟨c, hc, hs, hsyn⟩ := hc
  obtain ⟨i, hi⟩ := index_success mkAll_ok hs (D := ⟨2, 16, 3⟩) (D4 := ⟨8, 2, 3⟩) rfl rfl
  obtain ⟨s', hs', hok, -⟩ := index_ok mkAll_ok hi
  rw [hs] at hs'
  have := Except.ok.inj hs'
  subst this
  let vk : VerifierKey F17 idealPc :=
    ⟨i.polys.map fun p => idealPc.commit i.info.n p.2, i.polys.map (·.1), i.info.n, i.info⟩
  have hk : keygen mkAll id (idealPc : PC F17) 2 c ![1, 3, 4, 5] = .ok (⟨vk, i⟩, vk) := by
    unfold keygen
    rw [hi]
    simp only [bind, Except.bind]
    rw [if_neg (by rw [hok.n]; show ¬ 2 < 2; omega)]
  have hall : ∀ op ∈ goodOps, op.Holds fun v => (0 :: goodOps.filterMap Op.value).getD v 0 := by
    intro op hop
    simp only [goodOps, List.mem_cons, List.not_mem_nil, or_false] at hop
    rcases hop with rfl | rfl | rfl | rfl <;>
      simp only [Op.Holds, goodOps, List.filterMap, Op.value, auxTerm, List.getD_cons_succ, List.getD_cons_zero] <;>
      decide
  obtain ⟨h1, w, hw, h2⟩ := C75 mkAll_ok (fun l => List.Perm.refl l) hc idealPc_complete exRng hk hall
  rw [hsyn] at hw
  have := Except.ok.inj hw
  subst this
  obtain ⟨pf, hpf⟩ := h2 _ rfl (by
    intro k hk
    have hk2 : k < 2 := by rw [show vk.info.domain_n.size = goodSel.n from hok.size] at hk; exact hk
    unfold denAt
    rw [show (⟨vk, i⟩ : ProverKey F17 idealPc).index = i from rfl, hok.sigma_0, hok.sigma_1, hok.sigma_2, hok.sigma_3]
    clear hk
    revert k
    show ∀ k, k < 2 → ((([0, 0] : List F17).getD k 0 + 2 * ([16, 1] : List F17).getD k 0 + 3)
      * (([3, 9] : List F17).getD k 0 + 2 * ([4, 5] : List F17).getD k 0 + 3)
      * (([3, 9] : List F17).getD k 0 + 2 * ([3, 14] : List F17).getD k 0 + 3)
      * (([9, 9] : List F17).getD k 0 + 2 * ([12, 13] : List F17).getD k 0 + 3) ≠ 0)
    decide) (by intro c2 c3; show (2 : F17) ≠ 1; decide)
  exact ⟨c, _, vk, pf, hc, hk, hall, hpf, h1 pf hpf⟩

theorem Accepted.of_identity {i : Index F} (hD : i.info.domain_n.Valid) {pi : List F}
    (hpi : pi.length ≤ i.info.domain_n.size) {c : Chals F} {m : Msgs F} (hζ : c.zeta ≠ 1)
    (hid : (checkPoly i m.w0 m.w1 m.w2 m.w3 m.z
        (interpolate i.info.domain_n (pi ++ List.replicate (i.info.domain_n.size - pi.length) 0)) c.beta c.gamma
        c.alpha).eval c.zeta =
      tValue i.info.n m c.zeta * (c.zeta ^ i.info.domain_n.size - 1)) : Accepted i pi c m := by
  have get : ∀ (k : Nat) (l : String) (x v : F), (querySet i.info.domain_n c.zeta)[k]? = some (l, x) →
      (honestEvals i c m)[k]? = some v →
      getEval (evalMap (querySet i.info.domain_n c.zeta) (honestEvals i c m)) l x = .ok v := by
    intro k l x v hk1 hk2
    unfold getEval
    rw [evalMap_get _ _ l x v k hk1 hk2 (querySet_nodup _ _)]
  have g0 := get 0 "q_arith" c.zeta _ rfl rfl
  have g1 := get 1 "r" c.zeta _ rfl rfl
  have g2 := get 2 "sigma_0" c.zeta _ rfl rfl
  have g3 := get 3 "sigma_1" c.zeta _ rfl rfl
  have g4 := get 4 "sigma_2" c.zeta _ rfl rfl
  have g5 := get 5 "t" c.zeta _ rfl rfl
  have g6 := get 6 "w_0" c.zeta _ rfl rfl
  have g7 := get 7 "w_1" c.zeta _ rfl rfl
  have g8 := get 8 "w_2" c.zeta _ rfl rfl
  have g9 := get 9 "w_3" c.zeta _ rfl rfl
  have g10 := get 10 "z" (c.zeta * i.info.domain_n.element 1) _ rfl rfl
  refine ⟨honestEvals i c m, honestLcs i c m, honest_lcs hD hζ m g6 g7 g8 g9 g10 g2 g3 g4 g0, honest_evals m, ?_⟩
  unfold equalityCheck
  rw [padToSize_ok hpi, g0, g1, g2, g3, g4, g5, g6, g7, g8, g9, g10, firstLagrange_eval hD hζ]
  simp only [bind, Except.bind]
  congr 1
  exact (final_iff i rfl c m _ _).mpr hid

open Ex17 in
/-- All hypotheses of C43_partial are met: a circuit with one gate, the honest polynomials, and all challenges but
one. -/
example : ∃ c i, run [Op.alloc (5 : F17), .const 1 5 0] = some c ∧ index mkAll id c ![1, 3, 4, 5] = .ok i ∧
    (∀ (p q : Fin 4 × Fin i.info.domain_n.size), i.info.domain_n.ω ^ p.2.1 * (![1, 3, 4, 5] : Fin 4 → F17) p.1 =
      i.info.domain_n.ω ^ q.2.1 * (![1, 3, 4, 5] : Fin 4 → F17) q.1 → p = q) ∧
    ∃ (S : Finset F17) (w0 w1 w2 w3 : F17[X]) (z : F17 → F17 → F17[X]) (t0 t1 t2 t3 : F17 → F17 → F17 → F17[X]),
      5 * i.info.domain_n.size < S.card ∧
      (∀ β γ α, ∀ p ∈ (Msgs.mk w0 w1 w2 w3 (z β γ) (t0 β γ α) (t1 β γ α) (t2 β γ α) (t3 β γ α)).polys,
        p.2.natDegree ≤ i.info.domain_n.size) ∧
      ∀ β ∈ S, ∀ γ ∈ S, ∀ α ∈ S, ∀ ζ ∈ S, Accepted i [] ⟨β, γ, α, ζ⟩
        ⟨w0, w1, w2, w3, z β γ, t0 β γ α, t1 β γ α, t2 β γ α, t3 β γ α⟩ := by
  have hc : ∃ c, run [Op.alloc (5 : F17), .const 1 5 0] = some c ∧ c.compose mkAll id ![1, 3, 4, 5] =
      .ok ⟨1, [0], [1], [0], [0], [0], [12], [1], [1], [5], [3], [4]⟩ := ⟨_, rfl, rfl⟩
  obtain ⟨c, hc, hs⟩ := hc
  obtain ⟨i, hi⟩ := index_success mkAll_ok hs (D := ⟨1, 1, 3⟩) (D4 := ⟨4, 4, 3⟩) rfl rfl
  have hdom : i.info.domain_n = ⟨1, 1, 3⟩ := (Option.some.inj (index_domain hi hs)).symm
  obtain ⟨s', hs', hok, -⟩ := index_ok mkAll_ok hi
  rw [hs] at hs'
  have := Except.ok.inj hs'
  subst this
  have hsz : i.info.domain_n.size = 1 := by rw [hdom]
  have hnn : i.info.n = i.info.domain_n.size := by rw [hok.n, hok.size]
  let t : F17 → F17 → F17 → List F17 := fun β γ α => quotient i [0] 0 (C 5) (C 5) (C 5) 1 β γ α
  have htlen : ∀ β γ α, (t β γ α).length ≤ 4 * i.info.domain_n.size := by
    intro β γ α
    simp only [t]
    unfold quotient
    simp only [Domain.cosetIfft_length]
    rw [hok.size4, hok.size]
  have hpos := hok.valid.pos
  refine ⟨c, i, hc, hi, ?_, Finset.univ.erase 1, 0, C 5, C 5, C 5, fun _ _ => 1,
    fun β γ α => (quadSplit i.info.domain_n.size (t β γ α)).1,
    fun β γ α => (quadSplit i.info.domain_n.size (t β γ α)).2.1,
    fun β γ α => (quadSplit i.info.domain_n.size (t β γ α)).2.2.1,
    fun β γ α => (quadSplit i.info.domain_n.size (t β γ α)).2.2.2, ?_, ?_, ?_⟩
  · rw [hdom]
    decide
  · rw [hsz]
    decide
  · intro β γ α p hp
    have hch := fun p => (C42 hpos (t β γ α) (htlen β γ α) 0).2 p
    simp only [Msgs.polys, List.mem_cons, List.not_mem_nil, or_false] at hp
    rcases hp with rfl | rfl | rfl | rfl | rfl | rfl | rfl | rfl | rfl
    · simp
    · simp
    · simp
    · simp
    · simp
    · exact (hch ("t_0", _) (by simp [quotientPolys])).le
    · exact (hch ("t_1", _) (by simp [quotientPolys])).le
    · exact (hch ("t_2", _) (by simp [quotientPolys])).le
    · exact (hch ("t_3", _) (by simp [quotientPolys])).le
  · intro β _ γ _ α _ ζ hζ
    refine Accepted.of_identity hok.valid (by simp) (Finset.ne_of_mem_erase hζ) ?_
    dsimp only
    rw [hnn, tValue_eq (htlen β γ α) rfl rfl rfl rfl]
    have hpi : ([] ++ List.replicate (i.info.domain_n.size - ([] : List F17).length) 0 : List F17) = [0] := by
      rw [hsz]
      rfl
    rw [hpi]
    have hz : (0 : F17[X]).natDegree < i.info.domain_n.size := by simpa using hpos
    have key := quotient_eq hok [0] (w0 := 0) (w1 := C 5) (w2 := C 5) (w3 := C 5) (z := 1) hz (by simpa using hpos)
      (by simpa using hpos) (by simpa using hpos)
      (by simpa using hpos) β γ α (by
        intro k hk
        rw [checkPoly_element hok _ _ _ _ _ _ _ _ _ hk, interpolate_element hok.valid _ hk]
        have hk0 : k = 0 := by omega
        subst hk0
        simp only [eval_zero, eval_C, eval_one, pow_zero, List.getD_cons_zero, if_true, mul_one, mul_zero, zero_add]
        have e : (![1, 3, 4, 5] : Fin 4 → F17) 0 = 1 ∧ (![1, 3, 4, 5] : Fin 4 → F17) 1 = 3 ∧
          (![1, 3, 4, 5] : Fin 4 → F17) 2 = 4 ∧ (![1, 3, 4, 5] : Fin 4 → F17) 3 = 5 := ⟨rfl, rfl, rfl, rfl⟩
        rw [e.1, e.2.1, e.2.2.1, e.2.2.2]
        have e17 : (5 : F17) + 12 = 0 := by decide
        linear_combination e17)
    have := congrArg (eval ζ) key
    rw [eval_mul, eval_sub, eval_pow, eval_X, eval_one] at this
    exact this.symm

/-! ### C76: aborts of the verifier -/

/-- C76 is violated: a proof with fewer than three commitment vectors makes the verifier panic, and so do public
inputs longer than the domain. -/
theorem C76_violated (pc : PC F) (rng : FsRng F pc.Comm) (vk : VerifierKey F pc) (pi : List F) (pf : Proof F pc)
    (h : pf.commitments.length < 3 ∨ vk.info.domain_n.size < pi.length) : verify pc rng vk pi pf = .error .panic := by
  unfold verify
  split
  · rename_i c1 c2 c3 rest hc
    rcases h with h | h
    · rw [hc] at h
      simp only [List.length_cons] at h
      omega
    · unfold verifyWith equalityCheck padToSize
      rw [if_pos h]
      rfl
  · rfl

theorem except_ne_panic {α β : Type} {x : Except Err α} {f : α → Except Err β} (h1 : x ≠ .error .panic)
    (h2 : ∀ a, x = .ok a → f a ≠ .error .panic) : (x >>= f) ≠ .error .panic := by
  cases x with
  | error e => simpa [bind, Except.bind] using h1
  | ok a => exact h2 a rfl

theorem getEval_ne_panic (ev : String → F → Option F) (l : String) (x : F) : getEval ev l x ≠ .error .panic := by
  unfold getEval
  split <;> simp

/-- C76, the part that holds: with three vectors, public inputs that fit and `ζ ≠ 1` the verifier returns a result or
an error. -/
theorem C76_partial (pc : PC F) (rng : FsRng F pc.Comm) (vk : VerifierKey F pc) (hD : vk.info.domain_n.Valid)
    (pi : List F) (pf : Proof F pc) {c1 c2 c3 : List pc.Comm} {rest : List (List pc.Comm)}
    (hc : pf.commitments = c1 :: c2 :: c3 :: rest) (hpi : pi.length ≤ vk.info.domain_n.size)
    (hζ : rng [.seed pi, .comms c1, .comms c2, .comms c3] 0 ≠ 1) : verify pc rng vk pi pf ≠ .error .panic := by
  unfold verify
  rw [hc]
  dsimp only
  have hl : evaluateFirstLagrange vk.info.domain_n (challenges pc rng pi c1 c2 c3).zeta ≠ .error .panic := by
    rw [firstLagrange_eval hD (show (challenges pc rng pi c1 c2 c3).zeta ≠ 1 from hζ)]
    simp
  unfold verifyWith
  dsimp only
  apply except_ne_panic
  · unfold equalityCheck
    rw [padToSize_ok hpi]
    apply except_ne_panic (by simp)
    intro _ _
    iterate 11
      apply except_ne_panic (getEval_ne_panic _ _ _)
      intro _ _
    exact except_ne_panic hl fun _ _ => by simp
  · intro b _
    split
    · apply except_ne_panic
      · unfold linearCombinations
        iterate 9
          apply except_ne_panic (getEval_ne_panic _ _ _)
          intro _ _
        apply except_ne_panic
        · unfold permTerms
          exact except_ne_panic hl fun _ _ => by simp
        · intro _ _
          simp
      · intro _ _
        unfold liftPc
        split <;> simp
    · simp

theorem evalMap_full (D : Domain F) (ζ : F) {evals : List F} (h : 11 ≤ evals.length) :
    ∀ q ∈ querySet D ζ, ∃ v, evalMap (querySet D ζ) evals q.1 q.2 = some v := by
  intro q hq
  obtain ⟨j, hj, rfl⟩ := List.getElem_of_mem hq
  have hl : (querySet D ζ).length = 11 := rfl
  have hj' : j < ((querySet D ζ).zip evals).length := by
    rw [List.length_zip]
    omega
  cases hf : ((querySet D ζ).zip evals).find? fun t => t.1 = ((querySet D ζ)[j].1, (querySet D ζ)[j].2) with
  | some t => exact ⟨t.2, by unfold evalMap; rw [hf]; rfl⟩
  | none =>
    have := List.find?_eq_none.mp hf _ (List.getElem_mem hj')
    simp [List.getElem_zip] at this

theorem evalMap_short (D : Domain F) (ζ x : F) {evals : List F} (h : evals.length < 11) :
    evalMap (querySet D ζ) evals "z" x = none := by
  unfold evalMap
  rw [Option.map_eq_none_iff, List.find?_eq_none]
  intro t ht
  obtain ⟨j, hj, rfl⟩ := List.getElem_of_mem ht
  rw [List.length_zip] at hj
  have hj10 : j < 10 := by omega
  rw [List.getElem_zip]
  have hlt : j < (querySet D ζ).length := by
    show j < 11
    omega
  have hm : (querySet D ζ)[j]'hlt ∈ (querySet D ζ).take 10 :=
    List.mem_take_iff_getElem.mpr ⟨j, by show j < min 10 11; omega, rfl⟩
  have hne : ∀ q ∈ (querySet D ζ).take 10, q.1 ≠ "z" := by
    simp [querySet]
  intro he
  have he' : (querySet D ζ)[j]'hlt = ("z", x) := of_decide_eq_true he
  exact hne _ hm (by rw [he'])

/-- C76, exactly when the verifier panics: the proof has fewer than three commitment vectors, the public inputs do not
fit in the domain, or the last challenge is `1` and the proof has at least the eleven evaluations asked for. -/
theorem C76_exact (pc : PC F) (rng : FsRng F pc.Comm) (vk : VerifierKey F pc) (hD : vk.info.domain_n.Valid)
    (pi : List F) (pf : Proof F pc) :
    verify pc rng vk pi pf = .error .panic ↔
      pf.commitments.length < 3 ∨ vk.info.domain_n.size < pi.length ∨
        11 ≤ pf.evaluations.length ∧ ∃ c1 c2 c3 rest, pf.commitments = c1 :: c2 :: c3 :: rest ∧
          rng [.seed pi, .comms c1, .comms c2, .comms c3] 0 = 1 := by
  constructor
  · intro hv
    by_contra hcon
    push Not at hcon
    obtain ⟨h3, hpi, hex⟩ := hcon
    obtain ⟨c1, c2, c3, rest, hc⟩ : ∃ c1 c2 c3 rest, pf.commitments = c1 :: c2 :: c3 :: rest := by
      match hm : pf.commitments with
      | [] => rw [hm] at h3; simp at h3
      | [_] => rw [hm] at h3; simp at h3
      | [_, _] => rw [hm] at h3; simp at h3
      | a :: b :: c :: r => exact ⟨a, b, c, r, rfl⟩
    by_cases hev : 11 ≤ pf.evaluations.length
    · exact C76_partial pc rng vk hD pi pf hc hpi (hex hev c1 c2 c3 rest hc) hv
    · revert hv
      unfold verify
      rw [hc]
      dsimp only
      unfold verifyWith
      dsimp only
      have hz : ∀ x, getEval (evalMap (querySet vk.info.domain_n (challenges pc rng pi c1 c2 c3).zeta)
          pf.evaluations) "z" x = .error (.missingEvaluation "z") := by
        intro x
        unfold getEval
        rw [evalMap_short _ _ _ (by omega)]
      apply except_ne_panic
      · unfold equalityCheck
        rw [padToSize_ok hpi]
        apply except_ne_panic (by simp)
        intro _ _
        iterate 4
          apply except_ne_panic (getEval_ne_panic _ _ _)
          intro _ _
        apply except_ne_panic (getEval_ne_panic _ _ _)
        intro _ h
        rw [hz] at h
        simp at h
      · intro b hb
        exfalso
        unfold equalityCheck at hb
        rw [padToSize_ok hpi] at hb
        have hnot : ∀ (e : Except Err F) (f : F → Except Err Bool), (∀ a, f a ≠ .ok b) → (e >>= f) ≠ .ok b := by
          intro e f hf
          cases e with
          | error e => simp [bind, Except.bind]
          | ok a => exact hf a
        revert hb
        show (getEval _ "w_0" _ >>= _) ≠ _
        iterate 4
          apply hnot
          intro _
        rw [hz]
        simp [bind, Except.bind]
  · rintro (h | h | ⟨hev, c1, c2, c3, rest, hc, hζ⟩)
    · exact C76_violated pc rng vk pi pf (.inl h)
    · exact C76_violated pc rng vk pi pf (.inr h)
    · by_cases hpi : vk.info.domain_n.size < pi.length
      · exact C76_violated pc rng vk pi pf (.inr hpi)
      unfold verify
      rw [hc]
      dsimp only
      unfold verifyWith equalityCheck
      dsimp only
      rw [padToSize_ok (Nat.le_of_not_lt hpi)]
      have hl : evaluateFirstLagrange vk.info.domain_n (challenges pc rng pi c1 c2 c3).zeta = .error .panic := by
        have : (challenges pc rng pi c1 c2 c3).zeta = 1 := hζ
        unfold evaluateFirstLagrange invOrPanic
        rw [this, sub_self, mul_zero, if_pos rfl]
        rfl
      have hg : ∀ q ∈ querySet vk.info.domain_n (challenges pc rng pi c1 c2 c3).zeta,
          ∃ v, getEval (evalMap (querySet vk.info.domain_n (challenges pc rng pi c1 c2 c3).zeta)
            pf.evaluations) q.1 q.2 = .ok v := by
        intro q hq
        obtain ⟨v, hv⟩ := evalMap_full vk.info.domain_n _ hev q hq
        exact ⟨v, by unfold getEval; rw [hv]⟩
      generalize getEval (evalMap (querySet vk.info.domain_n (challenges pc rng pi c1 c2 c3).zeta)
            pf.evaluations) = ge at hg ⊢
      unfold querySet at hg
      simp only [List.mem_cons, List.not_mem_nil, or_false, forall_eq_or_imp, forall_eq] at hg
      obtain ⟨⟨_, e1⟩, ⟨_, e2⟩, ⟨_, e3⟩, ⟨_, e4⟩, ⟨_, e5⟩, ⟨_, e6⟩, ⟨_, e7⟩, ⟨_, e8⟩, ⟨_, e9⟩, ⟨_, e10⟩, ⟨_, e11⟩⟩ := hg
      rw [e1, e2, e3, e4, e5, e6, e7, e8, e9, e10, e11, hl]
      rfl

open Ex17 in
example : verify (idealPc : PC F17) (fun _ _ => 1) ⟨[], [], 2, ⟨2, ![1, 3, 4, 5], ⟨2, 16, 3⟩⟩⟩ []
    ⟨[[], [], []], List.replicate 11 0, ()⟩ = .error .panic :=
  (C76_exact idealPc _ _ (mkAll_ok.valid (n := 2) rfl) _ _).mpr (.inr (.inr ⟨by simp, [], [], [], [], rfl, rfl⟩))

open Ex17 in
example : (⟨[[], []], [], ()⟩ : Proof F17 idealPc).commitments.length < 3 ∨ 2 < ([] : List F17).length := by
  left
  decide

open Ex17 in
example : exRng [.seed [], .comms [(X : F17[X])], .comms [], .comms []] 0 ≠ 1 ∧ ([] : List F17).length ≤ 2 :=
  ⟨by show (2 : F17) ≠ 1; decide, by simp⟩

end Zkp.Plonk
