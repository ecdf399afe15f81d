/- C42, C43: the Plonk protocol. -/
import Verif.Proof.PlonkIndex
import Mathlib.Algebra.BigOperators.Fin

set_option linter.unusedSectionVars false
set_option linter.unusedSimpArgs false

namespace Zkp.Plonk

open Polynomial

variable {F : Type} [Field F] [DecidableEq F]

/-! ### C42: splitting the quotient -/

/-- C42.  A polynomial with at most `4n` coefficients is recovered, at every point, from the four chunks by the
linear combination `t` of the protocol; each chunk has degree less than `n`. -/
theorem C42 {n : Nat} (hn : 0 < n) (cs : List F) (h : cs.length ≤ 4 * n) (ζ : F) :
    evalPolys (quotientPolys n cs) (tComb n ζ) ζ = .ok ((polyOf cs).eval ζ) ∧
      ∀ p ∈ quotientPolys n cs, p.2.natDegree < n := by
  constructor
  · rw [quadSplit_eq n cs h]
    simp [evalPolys, tComb, quotientPolys, addTerm, bind, Except.bind, pure, Except.pure, eval_add, eval_mul]
  · intro p hp
    simp only [quotientPolys, quadSplit, List.mem_cons, List.not_mem_nil, or_false] at hp
    rcases hp with rfl | rfl | rfl | rfl <;> exact polyOf_natDegree_lt _ hn (by simp)

/-- The bound is needed: what lies beyond is dropped. -/
theorem C42_bound {n : Nat} (cs : List F) : quotientPolys n cs = quotientPolys n (cs.take (4 * n)) := by
  unfold quotientPolys quadSplit
  dsimp only
  rw [List.take_take, List.drop_take, List.drop_take, List.drop_take, List.take_take, List.take_take, List.take_take]
  have e0 : min n (4 * n) = n := by omega
  have e1 : min n (4 * n - n) = n := by omega
  have e2 : min n (4 * n - 2 * n) = n := by omega
  have e3 : min n (4 * n - 3 * n) = n := by omega
  rw [e0, e1, e2, e3]

open Ex17 in
example : (0 < 2) ∧ ([1, 2, 3, 4, 5, 6, 7] : List F17).length ≤ 4 * 2 := by decide

/-! ### C43: soundness is violated -/

/-- The circuit described by a sequence of calls can be satisfied with the given public inputs: there are values
of the variables for which the relation of every gate holds, with the public input of its row. -/
def Satisfiable (ops : List (Op F)) (pi : List F) : Prop :=
  ∃ a : Nat → F, ∀ (i : Nat) (op : Op F), (ops.filter fun op => op.gate.isSome)[i]? = some op → op.Rel a (pi.getD i 0)

theorem affine_cycle (a b : Nat → F) {n : Nat} (h : ∏ k ∈ Finset.range n, a k ≠ 1) :
    ∃ z : Nat → F, (∀ k, z (k + 1) = a k * z k + b k) ∧ z n = z 0 := by
  let zf : F → Nat → F := fun x k => Nat.rec x (fun j y => a j * y + b j) k
  have hs : ∀ x k, zf x (k + 1) = a k * zf x k + b k := fun x k => rfl
  have haff : ∀ x k, zf x k = (∏ j ∈ Finset.range k, a j) * x + zf 0 k := by
    intro x k
    induction k with
    | zero => simp [zf]
    | succ k ih => rw [hs, hs, ih, Finset.prod_range_succ]; ring
  have h1 : (1 : F) - ∏ k ∈ Finset.range n, a k ≠ 0 := sub_ne_zero.mpr (Ne.symm h)
  refine ⟨zf (zf 0 n / (1 - ∏ k ∈ Finset.range n, a k)), hs _, ?_⟩
  rw [haff]
  change _ = zf 0 n / _
  field_simp
  ring

/-- Reindexing the products over all positions along the wiring permutation. -/
theorem prod_sigma {n : Nat} (σ : Equiv.Perm (Fin 4 × Fin n)) (f : Fin 4 × Fin n → F) :
    ∏ k : Fin n, (f (σ (0, k)) * f (σ (1, k)) * f (σ (2, k)) * f (σ (3, k))) =
      ∏ k : Fin n, (f (0, k) * f (1, k) * f (2, k) * f (3, k)) := by
  have h : ∀ g : Fin 4 × Fin n → F, ∏ k : Fin n, (g (0, k) * g (1, k) * g (2, k) * g (3, k)) = ∏ p, g p := by
    intro g
    rw [Fintype.prod_prod_type_right]
    apply Finset.prod_congr rfl
    intro k _
    rw [Fin.prod_univ_four]
  rw [h f, ← Equiv.prod_comp σ f]
  exact h fun p => f (σ p)

/-- The key generator returns what `accept` needs. -/
theorem keygen_ok {mk : Nat → Option (Domain F)} {order : List (List Wire) → List (List Wire)} {pc : PC F}
    {maxDegree : Nat} {c : Composer F} {ks : Fin 4 → F} {pk : ProverKey F pc} {vk : VerifierKey F pc}
    (hk : keygen mk order pc maxDegree c ks = .ok (pk, vk)) :
    ∃ i, index mk order c ks = .ok i ∧ pk = ⟨vk, i⟩ ∧
      vk = ⟨i.polys.map fun p => pc.commit i.info.n p.2, i.polys.map (·.1), i.info.n, i.info⟩ := by
  unfold keygen at hk
  obtain ⟨i, hi, hk⟩ := except_bind hk
  split at hk
  · cases hk
  · injection hk with hk
    rw [Prod.mk.injEq] at hk
    obtain ⟨h1, h2⟩ := hk
    subst h2
    exact ⟨i, hi, h1.symm, rfl⟩

/-- C43, forgery.  For every circuit and all public inputs (satisfiable or not) there is an accepted proof.  It
puts the commitments to all nine polynomials into the third vector, so that `β`, `γ` and `α` are fixed
before any polynomial is chosen.  (The conditions on the challenges fail with negligible probability;
for `ζ = 1` the verifier aborts.) -/
theorem C43_forgery {mk : Nat → Option (Domain F)} (hmk : MkOk mk) {order : List (List Wire) → List (List Wire)}
    (ho : ∀ l, (order l).Perm l) {ks : Fin 4 → F} {ops : List (Op F)} {c : Composer F} (h : run ops = some c)
    {pc : PC F} (hpc : pc.Complete) (rng : FsRng F pc.Comm) {maxDegree : Nat} {pk : ProverKey F pc}
    {vk : VerifierKey F pc} (hk : keygen mk order pc maxDegree c ks = .ok (pk, vk)) (pi : List F)
    (hpi : pi.length ≤ vk.info.domain_n.size) (hα : rng [.seed pi, .comms [], .comms []] 0 ≠ 0)
    (hβγ : ∀ j : Fin 4, ∀ k < vk.info.domain_n.size,
      ks j * rng [.seed pi, .comms []] 0 * vk.info.domain_n.ω ^ k + rng [.seed pi, .comms []] 1 ≠ 0) :
    ∃ cs pf, pf.commitments = [[], [], cs] ∧
      (rng [.seed pi, .comms [], .comms [], .comms cs] 0 ≠ 1 → verify pc rng vk pi pf = .ok true) := by
  obtain ⟨i, hi, hpk, hvk⟩ := keygen_ok hk
  obtain ⟨s, hs, hok, D0, h0, hn0, hω0, hv0⟩ := index_ok hmk hi
  obtain ⟨σ, hσ, -⟩ := compose_perm hmk ho h hs h0
  have hinfo : vk.info = i.info := by rw [hvk]
  rw [hinfo] at hpi hβγ
  set D := i.info.domain_n with hDdef
  set β := rng [.seed pi, .comms []] 0 with hβ
  set γ := rng [.seed pi, .comms []] 1 with hγ
  set α := rng [.seed pi, .comms [], .comms []] 0 with hαdef
  set pi' := pi ++ List.replicate (D.size - pi.length) 0 with hpi'
  rw [hω0] at hσ
  have hpos : 0 < D.size := hok.valid.pos
  have hsz : D.size = s.n := hok.size
  -- the factors
  let num : Nat → F := fun k => (ks 0 * β * D.ω ^ k + γ) * (ks 1 * β * D.ω ^ k + γ) * (ks 2 * β * D.ω ^ k + γ)
    * (ks 3 * β * D.ω ^ k + γ)
  let den : Nat → F := fun k => (β * s.sigma_0.getD k 0 + γ) * (β * s.sigma_1.getD k 0 + γ)
    * (β * s.sigma_2.getD k 0 + γ) * (β * s.sigma_3.getD k 0 + γ)
  let f : Fin 4 × Fin s.n → F := fun p => ks p.1 * β * D.ω ^ p.2.1 + γ
  have hnum : ∀ k < D.size, num k ≠ 0 := fun k hk =>
    mul_ne_zero (mul_ne_zero (mul_ne_zero (hβγ 0 k hk) (hβγ 1 k hk)) (hβγ 2 k hk)) (hβγ 3 k hk)
  have hden' : ∀ k : Fin s.n, den k = f (σ (0, k)) * f (σ (1, k)) * f (σ (2, k)) * f (σ (3, k)) := by
    intro k
    have e : ∀ j : Fin 4, β * (s.sigma j).getD k.1 0 + γ = f (σ (j, k)) := by
      intro j
      rw [hσ (j, k)]
      simp only [f]
      ring
    simp only [den]
    rw [← e 0, ← e 1, ← e 2, ← e 3]
    rfl
  have hf : ∀ p, f p ≠ 0 := fun p => hβγ p.1 p.2.1 (by rw [hsz]; exact p.2.2)
  have hden : ∀ k < D.size, den k ≠ 0 := by
    intro k hk
    rw [hsz] at hk
    rw [show den k = den (⟨k, hk⟩ : Fin s.n) from rfl, hden']
    exact mul_ne_zero (mul_ne_zero (mul_ne_zero (hf _) (hf _)) (hf _)) (hf _)
  have hprod : ∏ k ∈ Finset.range D.size, den k = ∏ k ∈ Finset.range D.size, num k := by
    rw [hsz, Finset.prod_range, Finset.prod_range]
    simp only [hden']
    rw [prod_sigma σ f]
  -- the forged running product
  let δ : Nat → F := fun k => if k = 0 then 1 else 0
  let ar : Nat → F := fun k => (s.q_c.getD k 0 + pi'.getD k 0) * s.q_arith.getD k 0
  let a : Nat → F := fun k => (num k + α * δ k) / den k
  let b : Nat → F := fun k => (ar k / α - α * δ k) / den k
  have ha : ∏ k ∈ Finset.range D.size, a k ≠ 1 := by
    simp only [a]
    rw [Finset.prod_div_distrib, hprod]
    obtain ⟨m, hm⟩ : ∃ m, D.size = m + 1 := ⟨D.size - 1, by omega⟩
    rw [hm, Finset.prod_range_succ', Finset.prod_range_succ']
    have e : ∏ k ∈ Finset.range m, (num (k + 1) + α * δ (k + 1)) = ∏ k ∈ Finset.range m, num (k + 1) := by
      apply Finset.prod_congr rfl
      intro k _
      simp [δ]
    rw [e]
    have h1 : ∏ k ∈ Finset.range m, num (k + 1) ≠ 0 := by
      rw [Finset.prod_ne_zero_iff]
      intro k hk
      exact hnum _ (by rw [Finset.mem_range] at hk; omega)
    have h2 := hnum 0 hpos
    intro h
    rw [div_eq_one_iff_eq (mul_ne_zero h1 h2)] at h
    have h3 := mul_left_cancel₀ h1 h
    simp only [δ, if_true, mul_one] at h3
    exact hα (by linear_combination h3)
  obtain ⟨z, hz, hzn⟩ := affine_cycle a b ha
  set zp := interpolate D ((List.range D.size).map z) with hzp
  have hzeval : ∀ k ≤ D.size, zp.eval (D.ω ^ k) = z k := by
    intro k hk
    by_cases hk' : k = D.size
    · rw [hk', hok.valid.ω_pow, hzn, ← pow_zero D.ω, interpolate_element hok.valid _ hpos]
      simp [List.getD_eq_getElem?_getD, hpos]
    · have hk2 : k < D.size := by omega
      rw [interpolate_element hok.valid _ hk2]
      simp [List.getD_eq_getElem?_getD, hk2]
  -- the identity holds on the domain
  have hzero : ∀ k < D.size, (checkPoly i 0 0 0 0 zp (interpolate D pi') β γ α).eval (D.ω ^ k) = 0 := by
    intro k hk
    rw [checkPoly_element hok _ _ _ _ _ _ _ _ _ hk, hzeval k (by omega), hzeval (k + 1) (by omega), hz,
      interpolate_element hok.valid _ hk]
    simp only [eval_zero, mul_zero, zero_add, zero_mul]
    change (ar k) + α * (num k * z k - den k * (a k * z k + b k)) + α ^ 2 * (δ k * (z k - 1)) = 0
    simp only [a, b]
    have := hden k hk
    field_simp
    ring
  obtain ⟨t, htdeg, ht⟩ := exists_quotient hok.valid
    (checkPoly_natDegree hok (by simpa using hpos) (by simpa using hpos) (by simpa using hpos) (by simpa using hpos)
      (interpolate_natDegree hok.valid _) (interpolate_natDegree hok.valid _) β γ α) hzero
  let q := quadSplit D.size (coeffs t)
  let m : Msgs F := ⟨0, 0, 0, 0, zp, q.1, q.2.1, q.2.2.1, q.2.2.2⟩
  let cs := m.polys.map fun p => pc.commit i.info.n p.2
  have hnn : i.info.n = D.size := by rw [hok.n, hsz]
  by_cases hζ : rng [.seed pi, .comms [], .comms [], .comms cs] 0 = 1
  · exact ⟨cs, ⟨[[], [], cs], [], pc.openCombinations 0 [] [] [] 0⟩, rfl, fun h => absurd hζ h⟩
  · obtain ⟨pf, -, hpf, hver⟩ := accept hpc rng hvk hnn hok.valid hpi m (c1 := []) (c2 := []) (c3 := cs) rfl (by
      intro p hp
      rw [List.mem_append] at hp
      rw [hnn]
      rcases hp with hp | hp
      · exact (hok.polys_natDegree hp).le
      · have hch := fun p => (C42 hpos (coeffs t) (coeffs_length_le htdeg) 0).2 p
        simp only [Msgs.polys, m, List.mem_cons, List.not_mem_nil, or_false] at hp
        rcases hp with rfl | rfl | rfl | rfl | rfl | rfl | rfl | rfl | rfl
        · simp
        · simp
        · simp
        · simp
        · exact (interpolate_natDegree hok.valid _).le
        · exact (hch ("t_0", q.1) (by simp [quotientPolys, q])).le
        · exact (hch ("t_1", q.2.1) (by simp [quotientPolys, q])).le
        · exact (hch ("t_2", q.2.2.1) (by simp [quotientPolys, q])).le
        · exact (hch ("t_3", q.2.2.2) (by simp [quotientPolys, q])).le) hζ (by
      rw [hnn, tValue_eq (coeffs_length_le htdeg) (m := m) rfl rfl rfl rfl, polyOf_coeffs]
      have := congrArg (eval (challenges pc rng pi [] [] cs).zeta) ht
      rw [eval_mul, eval_sub, eval_pow, eval_X, eval_one] at this
      exact this)
    exact ⟨cs, pf, hpf, fun _ => hver⟩

/-! ### A concrete forgery -/

open Classical in
/-- An ideal commitment scheme: the commitment is the polynomial, checking compares evaluations. -/
noncomputable def idealPc : PC F where
  Comm := F[X]
  Opening := Unit
  commit _ p := p
  openCombinations _ _ _ _ _ := ()
  checkCombinations _ lcs comms qs ev _ _ :=
    .ok (decide (∀ q ∈ qs, ∃ v, evalQuery lcs comms q = .ok v ∧ ev q.1 q.2 = some v))

open Classical in
theorem idealPc_complete : (idealPc : PC F).Complete := by
  intro deg lcs polys qs ev ε _ _ h
  have : (polys.map fun p => (p.1, p.2)) = polys := by simp
  simp only [idealPc, this]
  congr 1
  exact decide_eq_true_iff.mpr h

open Ex17 in
/-- One variable that has to be 5 and 7. -/
def badOps : List (Op F17) := [.alloc 0, .const 1 5 0, .const 1 7 0]

open Ex17 in
/-- Some challenges. -/
noncomputable def exRng : FsRng F17 (idealPc : PC F17).Comm := fun _ k => if k = 1 then 3 else 2

theorem index_domain {mk : Nat → Option (Domain F)} {order : List (List Wire) → List (List Wire)} {ks : Fin 4 → F}
    {c : Composer F} {i : Index F} (hi : index mk order c ks = .ok i) {s : Selectors F}
    (hs : c.compose mk order ks = .ok s) : mk s.n = some i.info.domain_n := by
  unfold index at hi
  obtain ⟨s2, hs2, hi⟩ := except_bind hi
  have hs2 := liftCs_ok hs2
  rw [hs] at hs2
  injection hs2 with hs2
  subst hs2
  obtain ⟨D, hD, hi⟩ := except_bind hi
  obtain ⟨D4, hD4, hi⟩ := except_bind hi
  obtain ⟨vi, hvi, hi⟩ := except_bind hi
  injection hi with hi
  rw [← hi]
  exact domain_ok (liftCs_ok hD)

open Ex17 in
theorem bad_keygen : ∃ c pk vk, run badOps = some c ∧
    keygen mkAll id (idealPc : PC F17) 2 c ![1, 3, 4, 5] = .ok (pk, vk) ∧ vk.info.domain_n = ⟨2, 16, 3⟩ := by
  have hc : ∃ c s, run badOps = some c ∧ c.compose mkAll id ![1, 3, 4, 5] = .ok s ∧ s.n = 2 :=
    ⟨_, _, rfl, rfl, rfl⟩
  obtain ⟨c, s, hc, hs, hn⟩ := hc
  obtain ⟨i, hi⟩ := index_success mkAll_ok hs (D := ⟨2, 16, 3⟩) (D4 := ⟨8, 2, 3⟩) (by rw [hn]; rfl) (by rw [hn]; rfl)
  obtain ⟨s', hs', hok, -⟩ := index_ok mkAll_ok hi
  rw [hs] at hs'
  injection hs' with hs'
  subst hs'
  have hdom : i.info.domain_n = ⟨2, 16, 3⟩ := by
    have h1 := index_domain hi hs
    rw [hn] at h1
    exact (Option.some.inj h1).symm
  let vk : VerifierKey F17 idealPc :=
    ⟨i.polys.map fun p => idealPc.commit i.info.n p.2, i.polys.map (·.1), i.info.n, i.info⟩
  refine ⟨c, ⟨vk, i⟩, vk, hc, ?_, hdom⟩
  unfold keygen
  rw [hi]
  simp only [bind, Except.bind]
  rw [if_neg (by rw [hok.n, hn]; omega)]

open Ex17 in
/-- C43 is violated: a proof is accepted for a circuit that cannot be satisfied. -/
theorem C43_violated : ∃ (pc : PC F17) (rng : FsRng F17 pc.Comm) (ops : List (Op F17)) (c : Composer F17)
    (pk : ProverKey F17 pc) (vk : VerifierKey F17 pc) (pf : Proof F17 pc), pc.Complete ∧ run ops = some c ∧
    keygen mkAll id pc 2 c ![1, 3, 4, 5] = .ok (pk, vk) ∧ verify pc rng vk [] pf = .ok true ∧
    ¬ Satisfiable ops [] := by
  obtain ⟨c, pk, vk, hc, hk, hdom⟩ := bad_keygen
  obtain ⟨cs, pf, -, hpf⟩ := C43_forgery mkAll_ok (fun l => List.Perm.refl l) hc idealPc_complete exRng hk []
    (by simp) (by show (2 : F17) ≠ 0; decide) (by
      rw [hdom]
      show ∀ j : Fin 4, ∀ k < 2, (![1, 3, 4, 5] : Fin 4 → F17) j * 2 * 16 ^ k + 3 ≠ 0
      decide)
  refine ⟨idealPc, exRng, badOps, c, pk, vk, pf, idealPc_complete, hc, hk, hpf (by show (2 : F17) ≠ 1; decide), ?_⟩
  rintro ⟨a, ha⟩
  have h1 := ha 0 (.const 1 5 0) rfl
  have h2 := ha 1 (.const 1 7 0) rfl
  simp only [Op.Rel, List.getD_nil, sub_zero] at h1 h2
  rw [h1] at h2
  exact absurd h2 (by decide)

end Zkp.Plonk
