/- C116: a Plonk proof is not bound to the circuit it was made for. -/
import Verif.Props.PlonkComplete

set_option linter.unusedSectionVars false
set_option linter.unusedSimpArgs false

namespace Zkp.Plonk

open Polynomial

variable {F : Type} [Field F] [DecidableEq F]

/-- The gate `x = x + a`: satisfied by all values if `a = 0`, by none otherwise. -/
def idle (v : Nat) (a : F) : Op F := .add (v, 1) (v, 0) v none a 0

/-- The index of a circuit with other constants. -/
theorem index_q_c {mk : Nat → Option (Domain F)} {order : List (List Wire) → List (List Wire)} {ks : Fin 4 → F}
    {c : Composer F} {i : Index F} (hi : index mk order c ks = .ok i) (q : List F) {D0 : Domain F}
    (h0 : mk c.n = some D0) :
    index mk order { c with q_c := q } ks = .ok { i with
      q_c := keyPoly i.info.domain_n i.domain_4n (q ++ List.replicate (D0.size - c.n) 0) } := by
  unfold index at hi ⊢
  obtain ⟨s, hs, hi⟩ := except_bind hi
  obtain ⟨D, hD, hi⟩ := except_bind hi
  obtain ⟨D4, hD4, hi⟩ := except_bind hi
  obtain ⟨vi, hvi, hi⟩ := except_bind hi
  have hi := Except.ok.inj hi
  subst hi
  have hs' := liftCs_ok hs
  have : Composer.compose mk order { c with q_c := q } ks =
      .ok { s with q_c := q ++ List.replicate (D0.size - c.n) 0 } := by
    unfold Composer.compose at hs' ⊢
    obtain ⟨D1, hD1, hs'⟩ := except_bind hs'
    obtain ⟨t, ht, hs'⟩ := except_bind hs'
    have hs' := Except.ok.inj hs'
    subst hs'
    have e := domain_ok hD1
    rw [h0] at e
    have e := Option.some.inj e
    subst e
    dsimp only
    rw [hD1]
    simp only [bind, Except.bind]
    rw [ht]
  rw [this]
  simp only [liftCs, bind, Except.bind] at hD hD4 hvi ⊢
  rw [hD]
  dsimp only
  rw [hD4]
  dsimp only
  rw [hvi]

/-- The evaluations of a finished proof. -/
theorem finish_evals {pc : PC F} {rng : FsRng F pc.Comm} {i : Index F} {vk : VerifierKey F pc}
    (hvk : vk.info = i.info) (hD : i.info.domain_n.Valid) {hist : List (FsMsg F pc.Comm)} {c1 c2 c3 : List pc.Comm}
    (m : Msgs F) {c : Chals F} (hζ : c.zeta ≠ 1) {pf : Proof F pc}
    (h : finish pc rng ⟨vk, i⟩ hist c1 c2 c3 (i.polys ++ m.polys) c = .ok pf) :
    pf.commitments = [c1, c2, c3] ∧ pf.evaluations = honestEvals i c m := by
  have hl1 : linearCombinations i.info c (evalPolys (i.polys ++ m.polys)) = .ok (honestLcs i c m) :=
    honest_lcs hD hζ m (evalPolys_cons (l' := "w_0") (by simp [Index.polys, Msgs.polys]) _)
      (evalPolys_cons (l' := "w_1") (by simp [Index.polys, Msgs.polys]) _)
      (evalPolys_cons (l' := "w_2") (by simp [Index.polys, Msgs.polys]) _)
      (evalPolys_cons (l' := "w_3") (by simp [Index.polys, Msgs.polys]) _)
      (evalPolys_cons (l' := "z") (by simp [Index.polys, Msgs.polys]) _)
      (evalPolys_cons (l' := "sigma_0") (by simp [Index.polys, Msgs.polys]) _)
      (evalPolys_cons (l' := "sigma_1") (by simp [Index.polys, Msgs.polys]) _)
      (evalPolys_cons (l' := "sigma_2") (by simp [Index.polys, Msgs.polys]) _)
      (evalPolys_cons (l' := "q_arith") (by simp [Index.polys, Msgs.polys]) _)
  unfold finish at h
  dsimp only at h
  rw [hvk, hl1] at h
  simp only [bind, Except.bind] at h
  rw [honest_evals] at h
  dsimp only at h
  rw [← Except.ok.inj h]
  exact ⟨rfl, rfl⟩

/-- C116, the key is not absorbed.  Take an honest proof for a circuit and any other circuit that differs from it
in the constants of its gates only, such that the two polynomials of constants agree at the challenge `ζ` of
the proof.  Then the same commitments and the same evaluations, with a new opening, are accepted for the
other circuit. -/
theorem C116_same_messages {mk : Nat → Option (Domain F)} (hmk : MkOk mk)
    {order : List (List Wire) → List (List Wire)} (ho : ∀ l, (order l).Perm l) {ks : Fin 4 → F} {ops : List (Op F)}
    {c : Composer F} (h : run ops = some c) {pc : PC F} (hpc : pc.Complete) (rng : FsRng F pc.Comm)
    {maxDegree : Nat} {pk : ProverKey F pc} {vk : VerifierKey F pc}
    (hk : keygen mk order pc maxDegree c ks = .ok (pk, vk))
    (hall : ∀ op ∈ ops, op.Holds fun v => (0 :: ops.filterMap Op.value).getD v 0) {pf : Proof F pc}
    (hpf : prove mk pc rng pk c = .ok pf) (q : List F)
    (hq : ∀ c1 c2 c3, pf.commitments = [c1, c2, c3] →
      (interpolate vk.info.domain_n (q ++ List.replicate (vk.info.domain_n.size - c.n) 0)).eval
          (rng [.seed c.pi, .comms c1, .comms c2, .comms c3] 0) =
        (interpolate vk.info.domain_n (c.q_c ++ List.replicate (vk.info.domain_n.size - c.n) 0)).eval
          (rng [.seed c.pi, .comms c1, .comms c2, .comms c3] 0)) :
    ∃ pk' vk' pf', keygen mk order pc maxDegree { c with q_c := q } ks = .ok (pk', vk') ∧
      pf'.commitments = pf.commitments ∧ pf'.evaluations = pf.evaluations ∧
      verify pc rng vk' c.pi pf' = .ok true := by
  obtain ⟨i, c1, c2, c3, m, hi, hpk, hpilen, hf, hζ, h1, h2, h3⟩ := prove_inv hmk ho h hpc rng hk hall hpf
  obtain ⟨i', hi', hpk', hvk⟩ := keygen_ok hk
  have hii : i' = i := Except.ok.inj (hi'.symm.trans hi)
  subst hii
  obtain ⟨s, hs, hok, D0, h0, hn0, hω0, hv0⟩ := index_ok hmk hi
  have hsz : i'.info.domain_n.size = D0.size := by rw [hok.size, hn0]
  have hnn : i'.info.n = i'.info.domain_n.size := by rw [hok.n, hok.size]
  have hinfo : vk.info = i'.info := by rw [hvk]
  have hqc : i'.q_c.poly = interpolate i'.info.domain_n (c.q_c ++ List.replicate (D0.size - c.n) 0) := by
    rw [hok.q_c]
    have : s.q_c = c.q_c ++ List.replicate (D0.size - c.n) 0 := by
      unfold Composer.compose at hs
      obtain ⟨D1, hD1, hs⟩ := except_bind hs
      obtain ⟨t, ht, hs⟩ := except_bind hs
      have hs := Except.ok.inj hs
      subst hs
      have e := domain_ok hD1
      rw [h0] at e
      have e := Option.some.inj e
      subst e
      rfl
    rw [this]
    rfl
  obtain ⟨hcm, hev⟩ := finish_evals hinfo hok.valid m hζ hf
  have hq := hq c1 c2 c3 hcm
  rw [hinfo, hsz, ← hqc] at hq
  have hi2 := index_q_c hi q h0
  set j : Index F := { i' with
    q_c := keyPoly i'.info.domain_n i'.domain_4n (q ++ List.replicate (D0.size - c.n) 0) } with hj
  let vk' : VerifierKey F pc := ⟨j.polys.map fun p => pc.commit j.info.n p.2, j.polys.map (·.1), j.info.n, j.info⟩
  have hk' : keygen mk order pc maxDegree { c with q_c := q } ks = .ok (⟨vk', j⟩, vk') := by
    unfold keygen at hk ⊢
    rw [hi] at hk
    rw [hi2]
    simp only [bind, Except.bind] at hk ⊢
    split at hk
    · cases hk
    · rename_i hle
      rw [if_neg hle]
  have hjq : j.q_c.poly.eval (challenges pc rng c.pi c1 c2 c3).zeta =
      i'.q_c.poly.eval (challenges pc rng c.pi c1 c2 c3).zeta := hq
  have hdeg : ∀ p ∈ j.polys ++ m.polys, p.2.natDegree ≤ j.info.n := by
    intro p hp
    show p.2.natDegree ≤ i'.info.n
    rw [List.mem_append] at hp
    rcases hp with hp | hp
    · rw [hnn]
      obtain ⟨s', -, hok', -⟩ := index_ok hmk hi2
      exact (hok'.polys_natDegree hp).le
    · exact h2 p (List.mem_append_right _ hp)
  have hid := h3
  have hid' : (checkPoly j m.w0 m.w1 m.w2 m.w3 m.z
        (interpolate j.info.domain_n (c.pi ++ List.replicate (j.info.domain_n.size - c.pi.length) 0))
        (challenges pc rng c.pi c1 c2 c3).beta (challenges pc rng c.pi c1 c2 c3).gamma
        (challenges pc rng c.pi c1 c2 c3).alpha).eval (challenges pc rng c.pi c1 c2 c3).zeta =
      tValue j.info.n m (challenges pc rng c.pi c1 c2 c3).zeta
        * ((challenges pc rng c.pi c1 c2 c3).zeta ^ j.info.domain_n.size - 1) := by
    refine Eq.trans ?_ h3
    unfold checkPoly arithPoly
    simp only [eval_add, eval_mul]
    rw [hjq]
    rfl
  obtain ⟨pf', hf', hcm', hacc⟩ := accept hpc rng (i := j) (vk := vk') rfl hnn hok.valid hpilen m h1 hdeg hζ hid'
  refine ⟨_, vk', pf', hk', hcm'.trans hcm.symm, ?_, hacc⟩
  rw [hev, (finish_evals (i := j) (vk := vk') rfl hok.valid m hζ hf').2]
  unfold honestEvals rValue
  rw [hjq]

theorem run_append (ops : List (Op F)) (x y : Op F) :
    run (ops ++ [x, y]) = (run ops).bind fun c => (c.step x).bind fun c => c.step y := by
  unfold run
  rw [List.foldlM_append]
  cases List.foldlM Composer.step Composer.new ops with
  | none => rfl
  | some c =>
    simp only [List.foldlM, bind, Option.bind, pure]
    cases c.step x with
    | none => rfl
    | some c =>
      dsimp only
      cases c.step y <;> rfl

/-- Circuits ending with two idle gates differ in their constants only. -/
theorem run_idle {ops : List (Op F)} {v : Nat} {c : Composer F} (h : run (ops ++ [idle v 0, idle v 0]) = some c) :
    ∃ c0, run ops = some c0 ∧ c.n = c0.n + 2 ∧ c.q_c = c0.q_c ++ [0, 0] ∧ c.pi = c0.pi ++ [0, 0] ∧
      ∀ a b, run (ops ++ [idle v a, idle v b]) = some { c with q_c := c0.q_c ++ [a, b] } := by
  rw [run_append] at h
  cases h0 : run ops with
  | none => rw [h0] at h; cases h
  | some c0 =>
    rw [h0] at h
    simp only [Option.bind, Composer.step, idle, Composer.createAddGate, Composer.createPolyGate, bind] at h
    cases h1 : insertGate c0.variable_map (c0.auxWire none).1 v v v c0.n with
    | none => rw [h1] at h; cases h
    | some m1 =>
      rw [h1] at h
      dsimp only at h
      cases h2 : insertGate m1 (c0.auxWire none).1 v v v (c0.n + 1) with
      | none =>
        simp only [Composer.auxWire] at h2 h
        rw [h2] at h
        cases h
      | some m2 =>
        simp only [Composer.auxWire] at h1 h2 h
        rw [h2] at h
        have h := Option.some.inj h
        subst h
        refine ⟨c0, rfl, rfl, by simp, by simp, ?_⟩
        intro a b
        rw [run_append, h0]
        simp only [Option.bind, Composer.step, idle, Composer.createAddGate, Composer.createPolyGate, bind,
          Composer.auxWire]
        rw [h1]
        dsimp only
        rw [h2]
        simp

theorem getD_two (l z : List F) (a b : F) (k : Nat) : (l ++ ([a, b] ++ z)).getD k 0 =
    if k < l.length then l.getD k 0 else if k = l.length then a else if k = l.length + 1 then b
    else z.getD (k - l.length - 2) 0 := by
  induction l generalizing k with
  | nil => match k with
    | 0 => rfl
    | 1 => rfl
    | k + 2 => simp
  | cons x l ih => match k with
    | 0 => simp
    | k + 1 =>
      rw [List.cons_append, List.getD_cons_succ, ih, List.length_cons]
      simp only [add_lt_add_iff_right, add_left_inj, List.getD_cons_succ, Nat.add_sub_add_right]

theorem interpolate_degree' (D : Domain F) (v : List F) : (interpolate D v).degree < D.size := by
  have := polyOf_degree (D.ifft v)
  rwa [Domain.ifft_length] at this

/-- C116 is violated.  Take any satisfied circuit with two more gates that say nothing (`x = x + 0`), and an honest
proof for it whose challenge `ζ` lies outside the domain.  Then there is a circuit with the gates `x = x + a` and
`x = x + b` in their place, `a` and `b` nonzero, that nothing satisfies; and a proof with the same commitments and
evaluations is accepted for it.  So a proof can be made first and a false circuit found for it afterwards. -/
theorem C116_forgery {mk : Nat → Option (Domain F)} (hmk : MkOk mk)
    {order : List (List Wire) → List (List Wire)} (ho : ∀ l, (order l).Perm l) {ks : Fin 4 → F} {ops : List (Op F)}
    {v : Nat} {c : Composer F} (h : run (ops ++ [idle v 0, idle v 0]) = some c) {pc : PC F} (hpc : pc.Complete)
    (rng : FsRng F pc.Comm) {maxDegree : Nat} {pk : ProverKey F pc} {vk : VerifierKey F pc}
    (hk : keygen mk order pc maxDegree c ks = .ok (pk, vk))
    (hall : ∀ op ∈ ops, op.Holds fun v => (0 :: ops.filterMap Op.value).getD v 0) {pf : Proof F pc}
    (hpf : prove mk pc rng pk c = .ok pf)
    (hζ : ∀ c1 c2 c3, pf.commitments = [c1, c2, c3] →
      rng [.seed c.pi, .comms c1, .comms c2, .comms c3] 0 ^ vk.info.domain_n.size ≠ 1) :
    ∃ a b c' pk' vk' pf', a ≠ 0 ∧ b ≠ 0 ∧ run (ops ++ [idle v a, idle v b]) = some c' ∧ c'.pi = c.pi ∧
      keygen mk order pc maxDegree c' ks = .ok (pk', vk') ∧
      ¬ Satisfiable (ops ++ [idle v a, idle v b]) c.pi ∧
      pf'.commitments = pf.commitments ∧ pf'.evaluations = pf.evaluations ∧
      verify pc rng vk' c.pi pf' = .ok true := by
  obtain ⟨c0, h0, hn, hqc, hcpi, hrun⟩ := run_idle h
  have hvals : (ops ++ [idle v 0, idle v 0]).filterMap Op.value = ops.filterMap Op.value := by
    rw [List.filterMap_append]
    simp [idle, Op.value]
  have hall' : ∀ op ∈ ops ++ [idle v 0, idle v 0],
      op.Holds fun x => (0 :: (ops ++ [idle v 0, idle v 0]).filterMap Op.value).getD x 0 := by
    rw [hvals]
    intro op hop
    rw [List.mem_append] at hop
    rcases hop with hop | hop
    · exact hall op hop
    · simp only [List.mem_cons, List.not_mem_nil, or_false, or_self] at hop
      subst hop
      simp [idle, Op.Holds, auxTerm]
  obtain ⟨i, hi, hpk, hvk⟩ := keygen_ok hk
  obtain ⟨s, hs, hok, D0, hD0, hn0, hω0, hv0⟩ := index_ok hmk hi
  have hinfo : vk.info = i.info := by rw [hvk]
  have b0 := Built.run h0
  have bc := Built.run h
  have hsz : i.info.domain_n.size = D0.size := by rw [hok.size, hn0]
  have hge : c.n ≤ i.info.domain_n.size := by rw [hsz]; exact hmk.ge hD0
  set D := i.info.domain_n with hD
  have hv := hok.valid
  obtain ⟨_, c1, c2, c3, m, hi', _, _, hf, hζ1, _, _, _⟩ := prove_inv hmk ho h hpc rng hk hall' hpf
  rw [hi] at hi'
  have hi' := Except.ok.inj hi'
  subst hi'
  have hcm := (finish_evals hinfo hok.valid m hζ1 hf).1
  have hz := hζ c1 c2 c3 hcm
  rw [hinfo, ← hD] at hz
  set ζ := rng [.seed c.pi, .comms c1, .comms c2, .comms c3] 0 with hζdef
  have hlen : c0.q_c.length = c0.n := by rw [b0.q_c, List.length_map, ← b0.n]
  have hωζ : ∀ k, D.ω ^ k - ζ ≠ 0 := by
    intro k he
    apply hz
    rw [← sub_eq_zero.mp he, ← pow_mul, Nat.mul_comm, pow_mul, hv.ω_pow, one_pow]
  -- a polynomial that vanishes at ζ and on all other rows
  let T := ((Finset.range D.size).erase c0.n).erase (c0.n + 1)
  let δ : F[X] := (X - C ζ) * ∏ j ∈ T, (X - C (D.ω ^ j))
  have hTc : T.card = D.size - 2 := by
    rw [Finset.card_erase_of_mem, Finset.card_erase_of_mem, Finset.card_range]
    · omega
    · simp; omega
    · simp; omega
  have hδdeg : δ.degree < D.size := by
    have : δ.degree = ((D.size - 2 + 1 : Nat) : WithBot ℕ) := by
      rw [degree_mul, degree_X_sub_C, degree_prod]
      simp only [degree_X_sub_C, Finset.sum_const, hTc]
      rw [Nat.cast_add, add_comm]
      simp
    rw [this]
    exact_mod_cast (by omega : D.size - 2 + 1 < D.size)
  have hδne : ∀ k < D.size, k ∉ T → δ.eval (D.ω ^ k) ≠ 0 := by
    intro k hk hkT
    rw [eval_mul, eval_prod]
    refine mul_ne_zero (by simpa using hωζ k) (Finset.prod_ne_zero_iff.mpr ?_)
    intro j hj
    rw [eval_sub, eval_X, eval_C]
    intro he
    have hjr : j < D.size := by
      have := Finset.mem_of_mem_erase (Finset.mem_of_mem_erase hj)
      simpa using this
    have := hv.inj hk hjr (sub_eq_zero.mp he)
    exact hkT (this ▸ hj)
  have hδ0 : ∀ k ∈ T, δ.eval (D.ω ^ k) = 0 := by
    intro k hk
    rw [eval_mul, eval_prod, Finset.prod_eq_zero hk (by simp), mul_zero]
  set a := δ.eval (D.ω ^ c0.n) with ha
  set b := δ.eval (D.ω ^ (c0.n + 1)) with hb
  have ha0 : a ≠ 0 := hδne _ (by omega) (by simp [T])
  have hb0 : b ≠ 0 := hδne _ (by omega) (by simp [T])
  have hpoly : interpolate D ((c0.q_c ++ [a, b]) ++ List.replicate (D.size - c.n) 0) =
      interpolate D (c.q_c ++ List.replicate (D.size - c.n) 0) + δ := by
    refine hv.eq_of_agree ?_ ?_ ?_
    · exact interpolate_degree' _ _
    · exact lt_of_le_of_lt (degree_add_le _ _) (max_lt (interpolate_degree' _ _) hδdeg)
    · intro k hk
      rw [eval_add, interpolate_element hv _ hk, interpolate_element hv _ hk, hqc, List.append_assoc,
        List.append_assoc, getD_two, getD_two, hlen]
      split
      · rw [hδ0 k (Finset.mem_erase.mpr ⟨by omega, Finset.mem_erase.mpr ⟨by omega, Finset.mem_range.mpr hk⟩⟩), add_zero]
      split
      · rename_i h2
        rw [h2, ← ha, zero_add]
      split
      · rename_i h3
        rw [h3, ← hb, zero_add]
      · rw [hδ0 k (Finset.mem_erase.mpr ⟨by omega, Finset.mem_erase.mpr ⟨by omega, Finset.mem_range.mpr hk⟩⟩), add_zero]
  obtain ⟨pk', vk', pf', hk', h1, h2, h3⟩ := C116_same_messages hmk ho h hpc rng hk hall' hpf (c0.q_c ++ [a, b]) (by
    intro d1 d2 d3 hd
    rw [hcm] at hd
    have hd := List.cons.inj hd
    have hd2 := List.cons.inj hd.2
    have hd3 := List.cons.inj hd2.2
    obtain ⟨rfl, -⟩ := hd
    obtain ⟨rfl, -⟩ := hd2
    obtain ⟨rfl, -⟩ := hd3
    rw [hinfo, ← hD, ← hζdef, hpoly, eval_add]
    simp [δ])
  refine ⟨a, b, _, pk', vk', pf', ha0, hb0, hrun a b, rfl, hk', ?_, h1, h2, h3⟩
  rintro ⟨w, hw⟩
  have hlast := hw (ops.filter fun op => op.gate.isSome).length (idle v a) (by
    rw [List.filter_append, List.getElem?_append_right le_rfl, Nat.sub_self]
    rfl)
  have hpi : c.pi.getD (ops.filter fun op => op.gate.isSome).length 0 = 0 := by
    have : (ops.filter fun op => op.gate.isSome).length = c0.pi.length := by
      rw [b0.pi, List.length_map, List.length_filterMap_eq_countP, ← List.countP_eq_length_filter]
    rw [this, hcpi, ← List.append_nil [(0 : F), 0], getD_two]
    simp
  rw [hpi] at hlast
  simp only [idle, Op.Rel, auxTerm] at hlast
  apply ha0
  linear_combination -hlast

/-- For keys that differ in the constants only: messages accepted with one key are accepted with the other, for the
same challenges, if and only if the two polynomials of constants agree at `ζ` or no gate is active at `ζ`. -/
theorem C116_accept_iff {i : Index F} (hD : i.info.domain_n.Valid) (hn : i.info.n = i.info.domain_n.size)
    (q : KeyPoly F) {pi : List F} {c : Chals F} {m : Msgs F} (h : Accepted i pi c m) :
    Accepted { i with q_c := q } pi c m ↔
      i.q_c.poly.eval c.zeta = q.poly.eval c.zeta ∨ i.q_arith.poly.eval c.zeta = 0 := by
  obtain ⟨hζ, hpi, e⟩ := h.identity hD hn
  have key : (checkPoly { i with q_c := q } m.w0 m.w1 m.w2 m.w3 m.z
        (interpolate i.info.domain_n (pi ++ List.replicate (i.info.domain_n.size - pi.length) 0)) c.beta c.gamma
        c.alpha).eval c.zeta =
      (checkPoly i m.w0 m.w1 m.w2 m.w3 m.z
        (interpolate i.info.domain_n (pi ++ List.replicate (i.info.domain_n.size - pi.length) 0)) c.beta c.gamma
        c.alpha).eval c.zeta
      - (i.q_c.poly.eval c.zeta - q.poly.eval c.zeta) * i.q_arith.poly.eval c.zeta := by
    unfold checkPoly arithPoly numPoly denPoly
    simp only [eval_add, eval_mul, eval_sub, eval_C]
    ring
  constructor
  · intro h'
    obtain ⟨-, -, e'⟩ := Accepted.identity (i := { i with q_c := q }) hD hn h'
    have e' := key.symm.trans e'
    have h0 : (i.q_c.poly.eval c.zeta - q.poly.eval c.zeta) * i.q_arith.poly.eval c.zeta = 0 := by
      linear_combination e - e'
    rcases mul_eq_zero.mp h0 with h0 | h0
    · exact .inl (sub_eq_zero.mp h0)
    · exact .inr h0
  · intro h0
    refine Accepted.of_identity (i := { i with q_c := q }) hD hpi hζ ?_
    refine key.trans ?_
    rcases h0 with h0 | h0
    · rw [h0, sub_self, zero_mul, sub_zero]
      exact e
    · rw [h0, mul_zero, sub_zero]
      exact e

/-- C116, what holds: two circuits with different constants, fixed before `ζ` is drawn, have at most `2(n-1)` values
of `ζ` for which some messages and challenges are accepted with both keys.  (Missing: that the circuit is fixed
before, for which the key would have to be absorbed.) -/
theorem C116_partial {i : Index F} (hD : i.info.domain_n.Valid) (hn : i.info.n = i.info.domain_n.size)
    (hdeg : i.q_c.poly.natDegree < i.info.domain_n.size ∧ i.q_arith.poly.natDegree < i.info.domain_n.size)
    {q : KeyPoly F} (hq : q.poly.natDegree < i.info.domain_n.size) (hne : q.poly ≠ i.q_c.poly)
    (harith : i.q_arith.poly ≠ 0) (S : Finset F)
    (hS : ∀ ζ ∈ S, ∃ pi c m, c.zeta = ζ ∧ Accepted i pi c m ∧ Accepted { i with q_c := q } pi c m) :
    S.card ≤ 2 * (i.info.domain_n.size - 1) := by
  have hsub : S ⊆ (i.q_c.poly - q.poly).roots.toFinset ∪ i.q_arith.poly.roots.toFinset := by
    intro ζ hζ
    obtain ⟨pi, c, m, rfl, h, h'⟩ := hS ζ hζ
    rw [Finset.mem_union, Multiset.mem_toFinset, Multiset.mem_toFinset,
      mem_roots (sub_ne_zero.mpr (Ne.symm hne)), mem_roots harith]
    rcases (C116_accept_iff hD hn q h).mp h' with h0 | h0
    · left
      rw [IsRoot, eval_sub, h0, sub_self]
    · exact .inr h0
  have h1 : (i.q_c.poly - q.poly).roots.toFinset.card ≤ i.info.domain_n.size - 1 := by
    refine (Multiset.toFinset_card_le _).trans ((card_roots' _).trans ?_)
    have := natDegree_sub_le i.q_c.poly q.poly
    omega
  have h2 : i.q_arith.poly.roots.toFinset.card ≤ i.info.domain_n.size - 1 :=
    (Multiset.toFinset_card_le _).trans ((card_roots' _).trans (by omega))
  have := (Finset.card_le_card hsub).trans (Finset.card_union_le _ _)
  omega

/-! ### Examples -/

open Ex17 in
/-- `2 = 2 + 0`, twice. -/
def idleOps : List (Op F17) := [.alloc 2]

open Ex17 in
/-- The composed circuit. -/
def idleSel : Selectors F17 :=
  ⟨2, [0, 0], [1, 1], [0, 0], [16, 16], [0, 0], [0, 0], [1, 1], [16, 1], [12, 5], [3, 14], [4, 13]⟩

open Ex17 in
/-- All hypotheses of `C116_forgery` are met by a circuit with two gates. -/
theorem idle_case : ∃ c pk vk pf, run (idleOps ++ [idle 1 0, idle 1 0]) = some c ∧
    keygen mkAll id (idealPc : PC F17) 2 c ![1, 3, 4, 5] = .ok (pk, vk) ∧
    (∀ op ∈ idleOps, op.Holds fun v => (0 :: idleOps.filterMap Op.value).getD v 0) ∧
    prove mkAll idealPc exRng pk c = .ok pf ∧ vk.info.domain_n = ⟨2, 16, 3⟩ ∧ c.n = 2 ∧ c.q_c = [0, 0] ∧
    c.compose mkAll id ![1, 3, 4, 5] = .ok idleSel := by
  have hc : ∃ c, run (idleOps ++ [idle 1 0, idle 1 0]) = some c ∧ c.compose mkAll id ![1, 3, 4, 5] = .ok idleSel ∧
      c.synthesize mkAll = .ok ⟨[0, 0], [2, 2], [2, 2], [2, 2]⟩ ∧ c.n = 2 ∧ c.q_c = [0, 0] :=
    ⟨_, rfl, rfl, rfl, rfl, rfl⟩
  obtain ⟨c, hc, hs, hsyn, hcn, hcq⟩ := hc
  obtain ⟨i, hi⟩ := index_success mkAll_ok hs (D := ⟨2, 16, 3⟩) (D4 := ⟨8, 2, 3⟩) rfl rfl
  have hdom : i.info.domain_n = ⟨2, 16, 3⟩ := (Option.some.inj (index_domain hi hs)).symm
  obtain ⟨s', hs', hok, -⟩ := index_ok mkAll_ok hi
  rw [hs] at hs'
  have := Except.ok.inj hs'
  subst this
  let vk : VerifierKey F17 idealPc :=
    ⟨i.polys.map fun p => idealPc.commit i.info.n p.2, i.polys.map (·.1), i.info.n, i.info⟩
  have hk : keygen mkAll id (idealPc : PC F17) 2 c ![1, 3, 4, 5] = .ok (⟨vk, i⟩, vk) := by
    unfold keygen
    rw [hi]
    simp only [bind, Except.bind]
    rw [if_neg (by rw [hok.n]; show ¬ 2 < 2; omega)]
  have hall : ∀ op ∈ idleOps ++ [idle 1 0, idle 1 0],
      op.Holds fun v => (0 :: (idleOps ++ [idle 1 0, idle 1 0]).filterMap Op.value).getD v 0 := by
    intro op hop
    simp only [idleOps, idle, List.cons_append, List.nil_append, List.mem_cons, List.not_mem_nil, or_false] at hop
    rcases hop with rfl | rfl | rfl <;>
      simp only [Op.Holds, idleOps, idle, List.cons_append, List.nil_append, List.filterMap, Op.value, auxTerm,
        List.getD_cons_succ, List.getD_cons_zero] <;>
      decide
  obtain ⟨h1, w, hw, h2⟩ := C75 mkAll_ok (fun l => List.Perm.refl l) hc idealPc_complete exRng hk hall
  rw [hsyn] at hw
  have := Except.ok.inj hw
  subst this
  obtain ⟨pf, hpf⟩ := h2 _ rfl (by
    intro k hk
    have hk2 : k < 2 := by rw [show vk.info.domain_n.size = idleSel.n from hok.size] at hk; exact hk
    unfold denAt
    rw [show (⟨vk, i⟩ : ProverKey F17 idealPc).index = i from rfl, hok.sigma_0, hok.sigma_1, hok.sigma_2, hok.sigma_3]
    clear hk
    revert k
    show ∀ k, k < 2 → ((([0, 0] : List F17).getD k 0 + 2 * ([16, 1] : List F17).getD k 0 + 3)
      * (([2, 2] : List F17).getD k 0 + 2 * ([12, 5] : List F17).getD k 0 + 3)
      * (([2, 2] : List F17).getD k 0 + 2 * ([3, 14] : List F17).getD k 0 + 3)
      * (([2, 2] : List F17).getD k 0 + 2 * ([4, 13] : List F17).getD k 0 + 3) ≠ 0)
    decide) (by intro c2 c3; show (2 : F17) ≠ 1; decide)
  refine ⟨c, _, vk, pf, hc, hk, ?_, hpf, hdom, hcn, hcq, hs⟩
  intro op hop
  simp only [idleOps, List.mem_cons, List.not_mem_nil, or_false] at hop
  subst hop
  trivial

open Ex17 in
/-- C116 is violated: a proof is accepted for a circuit that nothing satisfies, and it consists of the commitments and
evaluations of an honest proof for another circuit. -/
theorem C116_violated : ∃ (a b : F17) (c c' : Composer F17) (pk pk' : ProverKey F17 idealPc)
    (vk vk' : VerifierKey F17 idealPc) (pf pf' : Proof F17 idealPc),
    run (idleOps ++ [idle 1 0, idle 1 0]) = some c ∧ keygen mkAll id idealPc 2 c ![1, 3, 4, 5] = .ok (pk, vk) ∧
    prove mkAll idealPc exRng pk c = .ok pf ∧
    run (idleOps ++ [idle 1 a, idle 1 b]) = some c' ∧ keygen mkAll id idealPc 2 c' ![1, 3, 4, 5] = .ok (pk', vk') ∧
    ¬ Satisfiable (idleOps ++ [idle 1 a, idle 1 b]) c'.pi ∧ pf'.commitments = pf.commitments ∧
    pf'.evaluations = pf.evaluations ∧ verify idealPc exRng vk' c'.pi pf' = .ok true := by
  obtain ⟨c, pk, vk, pf, hc, hk, hall, hpf, hdom, -, -, -⟩ := idle_case
  obtain ⟨a, b, c', pk', vk', pf', -, -, h1, h2, h3, h4, h5, h6, h7⟩ :=
    C116_forgery mkAll_ok (fun l => List.Perm.refl l) hc idealPc_complete exRng hk hall hpf (by
      intro c1 c2 c3 _
      rw [hdom]
      show (2 : F17) ^ 2 ≠ 1
      decide)
  rw [← h2] at h4 h7
  exact ⟨a, b, c, c', pk, pk', vk, vk', pf, pf', hc, hk, hpf, h1, h3, h4, h5, h6, h7⟩

open Ex17 in
/-- `C116_same_messages` for other constants: the line through `-1` at `1` and `-3` at `-1` is `X - 2`, which vanishes
at `ζ = 2`. -/
example : ∃ c pk vk pf, run (idleOps ++ [idle 1 0, idle 1 0]) = some c ∧
    keygen mkAll id (idealPc : PC F17) 2 c ![1, 3, 4, 5] = .ok (pk, vk) ∧ prove mkAll idealPc exRng pk c = .ok pf ∧
    c.q_c ≠ [16, 14] ∧ ∀ c1 c2 c3, pf.commitments = [c1, c2, c3] →
      (interpolate vk.info.domain_n ([16, 14] ++ List.replicate (vk.info.domain_n.size - c.n) 0)).eval
          (exRng [.seed c.pi, .comms c1, .comms c2, .comms c3] 0) =
        (interpolate vk.info.domain_n (c.q_c ++ List.replicate (vk.info.domain_n.size - c.n) 0)).eval
          (exRng [.seed c.pi, .comms c1, .comms c2, .comms c3] 0) := by
  obtain ⟨c, pk, vk, pf, hc, hk, hall, hpf, hdom, hcn, hcq, -⟩ := idle_case
  refine ⟨c, pk, vk, pf, hc, hk, hpf, by rw [hcq]; decide, ?_⟩
  intro c1 c2 c3 _
  have hv : (⟨2, 16, 3⟩ : Domain F17).Valid := mkAll_ok.valid (n := 2) rfl
  rw [hdom, hcn, hcq]
  have e1 : interpolate (⟨2, 16, 3⟩ : Domain F17) ([16, 14] ++ List.replicate (2 - 2) 0) = X - C 2 := by
    refine hv.eq_of_agree (interpolate_degree' _ _) (by rw [degree_X_sub_C]; decide) ?_
    intro k hk
    rw [interpolate_element hv _ hk, eval_sub, eval_X, eval_C]
    revert k
    show ∀ k, k < 2 → ([16, 14] : List F17).getD k 0 = 16 ^ k - 2
    decide
  have e2 : interpolate (⟨2, 16, 3⟩ : Domain F17) ([0, 0] ++ List.replicate (2 - 2) 0) = 0 := by
    refine hv.eq_of_agree (interpolate_degree' _ _) (by simp; decide) ?_
    intro k hk
    rw [interpolate_element hv _ hk, eval_zero]
    revert k
    show ∀ k, k < 2 → ([0, 0] : List F17).getD k 0 = 0
    decide
  rw [e1, e2]
  simp [exRng]

open Ex17 in
/-- `C116_accept_iff` and `C116_partial`: the honest messages of that circuit are accepted, for `ζ = 2`, with the
constants 0, 0 and with the constants -1, -3. -/
example : ∃ (i : Index F17) (q : KeyPoly F17), i.info.domain_n.Valid ∧ i.info.n = i.info.domain_n.size ∧
    (i.q_c.poly.natDegree < i.info.domain_n.size ∧ i.q_arith.poly.natDegree < i.info.domain_n.size) ∧
    q.poly.natDegree < i.info.domain_n.size ∧ q.poly ≠ i.q_c.poly ∧ i.q_arith.poly ≠ 0 ∧
    ∀ ζ ∈ ({2} : Finset F17), ∃ pi c m, c.zeta = ζ ∧ Accepted i pi c m ∧ Accepted { i with q_c := q } pi c m := by
  obtain ⟨c, pk, vk, pf, hc, hk, hall, hpf, hdom, hcn, hcq, hs⟩ := idle_case
  have hall' : ∀ op ∈ idleOps ++ [idle 1 0, idle 1 0],
      op.Holds fun v => (0 :: (idleOps ++ [idle 1 0, idle 1 0]).filterMap Op.value).getD v 0 := by
    intro op hop
    simp only [idleOps, idle, List.cons_append, List.nil_append, List.mem_cons, List.not_mem_nil, or_false] at hop
    rcases hop with rfl | rfl | rfl <;>
      simp only [Op.Holds, idleOps, idle, List.cons_append, List.nil_append, List.filterMap, Op.value, auxTerm,
        List.getD_cons_succ, List.getD_cons_zero] <;>
      decide
  obtain ⟨i, c1, c2, c3, m, hi, hpk, hpilen, hf, hζ, -, -, hid⟩ :=
    prove_inv (order := id) mkAll_ok (fun l => List.Perm.refl l) hc idealPc_complete exRng hk hall' hpf
  obtain ⟨s', hs', hok, -⟩ := index_ok mkAll_ok hi
  rw [hs] at hs'
  have := Except.ok.inj hs'
  subst this
  have hd : i.info.domain_n = ⟨2, 16, 3⟩ := (Option.some.inj (index_domain hi hs)).symm
  have hv := hok.valid
  have hnn : i.info.n = i.info.domain_n.size := by rw [hok.n, hok.size]
  have hcz : i.q_c.poly = 0 := by
    rw [hok.q_c]
    refine hv.eq_of_agree (interpolate_degree' _ _) (by rw [hd]; simp; decide) ?_
    intro k hk
    show (interpolate _ [0, 0]).eval _ = _
    rw [interpolate_element hv _ hk, eval_zero]
    rw [hd] at hk
    revert k
    show ∀ k, k < 2 → ([0, 0] : List F17).getD k 0 = 0
    decide
  have hacc := Accepted.of_identity hok.valid hpilen hζ hid
  refine ⟨i, ⟨X - C 2, [], []⟩, hv, hnn,
    ⟨hok.polys_natDegree (p := ("q_c", i.q_c.poly)) (by simp [Index.polys]),
      hok.polys_natDegree (p := ("q_arith", i.q_arith.poly)) (by simp [Index.polys])⟩, ?_, ?_, ?_, ?_⟩
  · rw [hd, natDegree_X_sub_C]
    decide
  · rw [hcz]
    exact X_sub_C_ne_zero 2
  · intro h0
    have h1 := interpolate_element hv [1, 1] (k := 0) hv.pos
    have h2 : i.q_arith.poly = interpolate i.info.domain_n [1, 1] := by rw [hok.q_arith]; rfl
    rw [← h2, h0, eval_zero] at h1
    exact absurd h1 (by decide)
  · intro ζ hmem
    rw [Finset.mem_singleton] at hmem
    subst hmem
    refine ⟨c.pi, _, m, rfl, hacc, (C116_accept_iff hv hnn _ hacc).mpr (.inl ?_)⟩
    rw [hcz]
    simp [challenges, exRng]

end Zkp.Plonk
