/- C102: what Plonk proofs reveal about the assignment. -/
import Verif.Props.PlonkComplete

set_option linter.unusedSectionVars false
set_option linter.unusedSimpArgs false

namespace Zkp.Plonk

open Polynomial

variable {F : Type} [Field F] [DecidableEq F]

/-- A call without the value it assigns: what the circuit is made of. -/
def Op.shape : Op F → Op F
  | .alloc _ => .alloc 0
  | op => op

/-- C102, the full statement: two assignments that satisfy one circuit with the same public inputs lead to the
same proof (the prover makes no random choices, so equal distributions are equal proofs). -/
def C102_statement (mk : Nat → Option (Domain F)) (order : List (List Wire) → List (List Wire)) (pc : PC F)
    (rng : FsRng F pc.Comm) (ks : Fin 4 → F) (maxDegree : Nat) : Prop :=
  ∀ (ops ops' : List (Op F)) (c c' : Composer F) (pk : ProverKey F pc) (vk : VerifierKey F pc) (pf pf' : Proof F pc),
    ops.map Op.shape = ops'.map Op.shape → run ops = some c → run ops' = some c' → c.pi = c'.pi →
    (∀ op ∈ ops, op.Holds fun v => (0 :: ops.filterMap Op.value).getD v 0) →
    (∀ op ∈ ops', op.Holds fun v => (0 :: ops'.filterMap Op.value).getD v 0) →
    keygen mk order pc maxDegree c ks = .ok (pk, vk) →
    prove mk pc rng pk c = .ok pf → prove mk pc rng pk c' = .ok pf' → pf = pf'

theorem mapM_get {α β ε : Type} {f : α → Except ε β} {l : List α} {r : List β} (h : l.mapM f = .ok r) {k : Nat}
    {a : α} (hk : l[k]? = some a) : ∃ b, r[k]? = some b ∧ f a = .ok b := by
  induction l generalizing r k with
  | nil => simp at hk
  | cons x xs ih =>
    rw [List.mapM_cons] at h
    obtain ⟨b, hb, h⟩ := except_bind h
    obtain ⟨bs, hbs, h⟩ := except_bind h
    have h : r = b :: bs := (Except.ok.inj h).symm
    subst h
    cases k with
    | zero =>
      simp only [List.getElem?_cons_zero, Option.some.injEq] at hk
      subst hk
      exact ⟨b, rfl, hb⟩
    | succ k =>
      simp only [List.getElem?_cons_succ] at hk ⊢
      exact ih hbs hk

/-- The linear combinations for the wires are the wires. -/
theorem lcs_wires {info : IndexInfo F} {c : Chals F} {ev : LinComb F → F → Except Err F} {lcs : List (LinComb F)}
    (h : linearCombinations info c ev = .ok lcs) :
    ∀ l ∈ ["w_0", "w_1", "w_2", "w_3"], lcs.find? (·.label = l) = some (single l) := by
  unfold linearCombinations at h
  iterate 10 obtain ⟨_, -, h⟩ := except_bind h
  have h := (Except.ok.inj h).symm
  subst h
  intro l hl
  simp only [List.mem_cons, List.not_mem_nil, or_false] at hl
  rcases hl with rfl | rfl | rfl | rfl <;> simp [single, tComb, List.find?]

/-- What the prover sends about the columns of the assignment: commitments to the polynomials through them, and
the values of these polynomials at the last challenge. -/
theorem C102_reveals {mk : Nat → Option (Domain F)} {pc : PC F} {rng : FsRng F pc.Comm} {pk : ProverKey F pc}
    {cs : Composer F} {pf : Proof F pc} (h : prove mk pc rng pk cs = .ok pf) :
    ∃ w c1 c2 c3, cs.synthesize mk = .ok w ∧ pf.commitments = [c1, c2, c3] ∧
      c1 = [w.w_0, w.w_1, w.w_2, w.w_3].map
        (fun v => pc.commit pk.vk.degree (interpolate pk.index.info.domain_n v)) ∧
      ∀ ζ, ζ = rng [.seed cs.pi, .comms c1, .comms c2, .comms c3] 0 →
        pf.evaluations[6]? = some ((interpolate pk.index.info.domain_n w.w_0).eval ζ) ∧
        pf.evaluations[7]? = some ((interpolate pk.index.info.domain_n w.w_1).eval ζ) ∧
        pf.evaluations[8]? = some ((interpolate pk.index.info.domain_n w.w_2).eval ζ) ∧
        pf.evaluations[9]? = some ((interpolate pk.index.info.domain_n w.w_3).eval ζ) := by
  unfold prove at h
  dsimp only at h
  obtain ⟨pi, -, h⟩ := except_bind h
  obtain ⟨w, hw, h⟩ := except_bind h
  obtain ⟨z, -, h⟩ := except_bind h
  unfold finish at h
  obtain ⟨lcs, hl, h⟩ := except_bind h
  obtain ⟨evals, he, h⟩ := except_bind h
  have h := (Except.ok.inj h).symm
  subst h
  refine ⟨w, _, _, _, liftCs_ok hw, rfl, rfl, ?_⟩
  rintro ζ rfl
  have hf := lcs_wires hl
  refine ⟨?_, ?_, ?_, ?_⟩
  · obtain ⟨b, hb, hq⟩ := mapM_get he (k := 6) rfl
    rw [hb, evalQuery_single (hf "w_0" (by simp)) (by simp [Index.polys, witnessPolys, List.find?]; rfl) hq]
    rfl
  · obtain ⟨b, hb, hq⟩ := mapM_get he (k := 7) rfl
    rw [hb, evalQuery_single (hf "w_1" (by simp)) (by simp [Index.polys, witnessPolys, List.find?]; rfl) hq]
    rfl
  · obtain ⟨b, hb, hq⟩ := mapM_get he (k := 8) rfl
    rw [hb, evalQuery_single (hf "w_2" (by simp)) (by simp [Index.polys, witnessPolys, List.find?]; rfl) hq]
    rfl
  · obtain ⟨b, hb, hq⟩ := mapM_get he (k := 9) rfl
    rw [hb, evalQuery_single (hf "w_3" (by simp)) (by simp [Index.polys, witnessPolys, List.find?]; rfl) hq]
    rfl

/-- With a commitment function that sends polynomials below the size of the domain to different commitments, the
first commitments of a proof determine every value on the wires: a guess of the assignment can be tested. -/
theorem C102_tells {mk : Nat → Option (Domain F)} {pc : PC F} {rng : FsRng F pc.Comm} {pk : ProverKey F pc}
    (hD : pk.index.info.domain_n.Valid)
    (hb : ∀ p q : F[X], p.natDegree < pk.index.info.domain_n.size → q.natDegree < pk.index.info.domain_n.size →
      pc.commit pk.vk.degree p = pc.commit pk.vk.degree q → p = q)
    {cs cs' : Composer F} {pf pf' : Proof F pc} (h : prove mk pc rng pk cs = .ok pf)
    (h' : prove mk pc rng pk cs' = .ok pf') (he : pf.commitments[0]? = pf'.commitments[0]?) :
    ∃ w w', cs.synthesize mk = .ok w ∧ cs'.synthesize mk = .ok w' ∧ ∀ k < pk.index.info.domain_n.size,
      w.w_0.getD k 0 = w'.w_0.getD k 0 ∧ w.w_1.getD k 0 = w'.w_1.getD k 0 ∧
      w.w_2.getD k 0 = w'.w_2.getD k 0 ∧ w.w_3.getD k 0 = w'.w_3.getD k 0 := by
  obtain ⟨w, c1, c2, c3, hw, hc, h1, -⟩ := C102_reveals h
  obtain ⟨w', c1', c2', c3', hw', hc', h1', -⟩ := C102_reveals h'
  rw [hc, hc'] at he
  have e : c1 = c1' := by simpa using he
  rw [h1, h1'] at e
  simp only [List.map_cons, List.map_nil, List.cons.injEq, and_true] at e
  have col : ∀ {u v : List F}, pc.commit pk.vk.degree (interpolate pk.index.info.domain_n u) =
      pc.commit pk.vk.degree (interpolate pk.index.info.domain_n v) → ∀ k < pk.index.info.domain_n.size,
      u.getD k 0 = v.getD k 0 := by
    intro u v huv k hk
    rw [← interpolate_element hD u hk, ← interpolate_element hD v hk,
      hb _ _ (interpolate_natDegree hD u) (interpolate_natDegree hD v) huv]
  exact ⟨w, w', hw, hw', fun k hk => ⟨col e.1 k hk, col e.2.1 k hk, col e.2.2.1 k hk, col e.2.2.2 k hk⟩⟩

/-- C102, the part that holds: assignments that put the same values on the wires and have the same public inputs
lead to the same proof (or error); nothing else of the assignment is used.  Missing: assignments with different
values on the wires, for which the statement is false (C102_violated). -/
theorem C102_partial (mk : Nat → Option (Domain F)) (pc : PC F) (rng : FsRng F pc.Comm) (pk : ProverKey F pc)
    {cs cs' : Composer F} (hw : cs.synthesize mk = cs'.synthesize mk) (hpi : cs.pi = cs'.pi) :
    prove mk pc rng pk cs = prove mk pc rng pk cs' := by
  unfold prove
  rw [hw, hpi]

/-! ### A circuit with two assignments -/

open Ex17 in
/-- `v · v = 9`, and 9 is a public input. -/
def rootOps (v : F17) : List (Op F17) := [.alloc v, .alloc 9, .mul 1 1 2 none 1 0 0, .const 2 0 9]

open Ex17 in
/-- Challenges that do not depend on the messages. -/
def fixedRng (C : Type) : FsRng F17 C := fun _ k => if k = 1 then 3 else 2

open Ex17 in
/-- For every complete commitment scheme: both square roots lead to accepted proofs under one key, whose
evaluations differ. -/
theorem root_proofs (pc : PC F17) (hpc : pc.Complete) : ∃ c c' pk vk pf pf',
    run (rootOps 3) = some c ∧ run (rootOps 14) = some c' ∧ c.pi = c'.pi ∧
    (∀ op ∈ rootOps 3, op.Holds fun v => (0 :: (rootOps 3).filterMap Op.value).getD v 0) ∧
    (∀ op ∈ rootOps 14, op.Holds fun v => (0 :: (rootOps 14).filterMap Op.value).getD v 0) ∧
    keygen mkAll id pc 2 c ![1, 3, 4, 5] = .ok (pk, vk) ∧
    prove mkAll pc (fixedRng _) pk c = .ok pf ∧ prove mkAll pc (fixedRng _) pk c' = .ok pf' ∧
    verify pc (fixedRng _) vk c.pi pf = .ok true ∧ verify pc (fixedRng _) vk c.pi pf' = .ok true ∧
    pf.evaluations ≠ pf'.evaluations := by
  have hc : ∃ c c', run (rootOps 3) = some c ∧ run (rootOps 14) = some c' ∧ c.pi = c'.pi ∧
      c.compose mkAll id ![1, 3, 4, 5] = .ok goodSel ∧ c'.compose mkAll id ![1, 3, 4, 5] = .ok goodSel ∧
      c.synthesize mkAll = .ok ⟨[0, 0], [3, 9], [3, 9], [9, 9]⟩ ∧
      c'.synthesize mkAll = .ok ⟨[0, 0], [14, 9], [14, 9], [9, 9]⟩ := ⟨_, _, rfl, rfl, rfl, rfl, rfl, rfl, rfl⟩
  obtain ⟨c, c', hc, hc', hpi, hs, hs', hsyn, hsyn'⟩ := hc
  obtain ⟨i, hi⟩ := index_success mkAll_ok hs (D := ⟨2, 16, 3⟩) (D4 := ⟨8, 2, 3⟩) rfl rfl
  have hdom : i.info.domain_n = ⟨2, 16, 3⟩ := (Option.some.inj (index_domain hi hs)).symm
  have hi' : index mkAll id c' ![1, 3, 4, 5] = .ok i := by
    rw [← hi]
    unfold index
    rw [hs, hs']
  obtain ⟨s', hs2, hok, -⟩ := index_ok mkAll_ok hi
  rw [hs] at hs2
  have := Except.ok.inj hs2
  subst this
  let vk : VerifierKey F17 pc :=
    ⟨i.polys.map fun p => pc.commit i.info.n p.2, i.polys.map (·.1), i.info.n, i.info⟩
  have hn : ¬ 2 < i.info.n := by rw [hok.n]; show ¬ 2 < 2; omega
  have hk : keygen mkAll id pc 2 c ![1, 3, 4, 5] = .ok (⟨vk, i⟩, vk) := by
    unfold keygen
    rw [hi]
    simp only [bind, Except.bind]
    rw [if_neg hn]
  have hk' : keygen mkAll id pc 2 c' ![1, 3, 4, 5] = .ok (⟨vk, i⟩, vk) := by
    unfold keygen
    rw [hi']
    simp only [bind, Except.bind]
    rw [if_neg hn]
  have hall : ∀ op ∈ rootOps 3, op.Holds fun v => (0 :: (rootOps 3).filterMap Op.value).getD v 0 := by
    intro op hop
    simp only [rootOps, List.mem_cons, List.not_mem_nil, or_false] at hop
    rcases hop with rfl | rfl | rfl | rfl <;>
      simp only [Op.Holds, rootOps, List.filterMap, Op.value, auxTerm, List.getD_cons_succ, List.getD_cons_zero] <;>
      decide
  have hall' : ∀ op ∈ rootOps 14, op.Holds fun v => (0 :: (rootOps 14).filterMap Op.value).getD v 0 := by
    intro op hop
    simp only [rootOps, List.mem_cons, List.not_mem_nil, or_false] at hop
    rcases hop with rfl | rfl | rfl | rfl <;>
      simp only [Op.Holds, rootOps, List.filterMap, Op.value, auxTerm, List.getD_cons_succ, List.getD_cons_zero] <;>
      decide
  obtain ⟨h1, w, hw, h2⟩ := C75 mkAll_ok (fun l => List.Perm.refl l) hc hpc (fixedRng _) hk hall
  rw [hsyn] at hw
  have := Except.ok.inj hw
  subst this
  obtain ⟨pf, hpf⟩ := h2 _ rfl (by
    intro k hk
    have hk2 : k < 2 := by rw [show vk.info.domain_n.size = goodSel.n from hok.size] at hk; exact hk
    unfold denAt
    rw [show (⟨vk, i⟩ : ProverKey F17 pc).index = i from rfl, hok.sigma_0, hok.sigma_1, hok.sigma_2, hok.sigma_3]
    clear hk
    revert k
    show ∀ k, k < 2 → ((([0, 0] : List F17).getD k 0 + 2 * ([16, 1] : List F17).getD k 0 + 3)
      * (([3, 9] : List F17).getD k 0 + 2 * ([4, 5] : List F17).getD k 0 + 3)
      * (([3, 9] : List F17).getD k 0 + 2 * ([3, 14] : List F17).getD k 0 + 3)
      * (([9, 9] : List F17).getD k 0 + 2 * ([12, 13] : List F17).getD k 0 + 3) ≠ 0)
    decide) (by intro c2 c3; show (2 : F17) ≠ 1; decide)
  obtain ⟨h1', w', hw', h2'⟩ := C75 mkAll_ok (fun l => List.Perm.refl l) hc' hpc (fixedRng _) hk' hall'
  rw [hsyn'] at hw'
  have := Except.ok.inj hw'
  subst this
  obtain ⟨pf', hpf'⟩ := h2' _ rfl (by
    intro k hk
    have hk2 : k < 2 := by rw [show vk.info.domain_n.size = goodSel.n from hok.size] at hk; exact hk
    unfold denAt
    rw [show (⟨vk, i⟩ : ProverKey F17 pc).index = i from rfl, hok.sigma_0, hok.sigma_1, hok.sigma_2, hok.sigma_3]
    clear hk
    revert k
    show ∀ k, k < 2 → ((([0, 0] : List F17).getD k 0 + 2 * ([16, 1] : List F17).getD k 0 + 3)
      * (([14, 9] : List F17).getD k 0 + 2 * ([4, 5] : List F17).getD k 0 + 3)
      * (([14, 9] : List F17).getD k 0 + 2 * ([3, 14] : List F17).getD k 0 + 3)
      * (([9, 9] : List F17).getD k 0 + 2 * ([12, 13] : List F17).getD k 0 + 3) ≠ 0)
    decide) (by intro c2 c3; show (2 : F17) ≠ 1; decide)
  refine ⟨c, c', _, vk, pf, pf', hc, hc', hpi, hall, hall', hk, hpf, hpf', h1 pf hpf, ?_, ?_⟩
  · rw [hpi]
    exact h1' pf' hpf'
  · intro e
    obtain ⟨w, _, _, _, hw, -, -, hv⟩ := C102_reveals hpf
    obtain ⟨w', _, _, _, hw', -, -, hv'⟩ := C102_reveals hpf'
    rw [hsyn] at hw
    rw [hsyn'] at hw'
    have := Except.ok.inj hw
    subst this
    have := Except.ok.inj hw'
    subst this
    have a := (hv 2 rfl).2.1
    have a' := (hv' 2 rfl).2.1
    rw [e, a'] at a
    have a := Option.some.inj a
    dsimp only at a
    rw [hdom] at a
    have ev : ∀ v : F17, (interpolate (⟨2, 16, 3⟩ : Domain F17) [v, 9]).eval 2 = 10 * v + 8 * 9 := by
      intro v
      unfold interpolate
      rw [polyOf_eval]
      revert v
      decide +kernel
    rw [ev, ev] at a
    revert a
    decide

open Ex17 in
/-- C102 is violated, whatever (complete) commitment scheme is used: the proofs for the two square roots of a
public input differ. -/
theorem C102_violated (pc : PC F17) (hpc : pc.Complete) :
    ¬ C102_statement mkAll id pc (fixedRng _) ![1, 3, 4, 5] 2 := by
  intro h
  obtain ⟨c, c', pk, vk, pf, pf', hc, hc', hpi, hall, hall', hk, hpf, hpf', -, -, hne⟩ := root_proofs pc hpc
  exact hne (congrArg Proof.evaluations (h (rootOps 3) (rootOps 14) c c' pk vk pf pf' rfl hc hc' hpi hall hall' hk hpf hpf'))

/-- A commitment scheme whose commitments and openings reveal nothing is complete, so C102_violated applies to it:
the evaluations alone tell the assignments apart. -/
def blankPc : PC F where
  Comm := Unit
  Opening := Unit
  commit _ _ := ()
  openCombinations _ _ _ _ _ := ()
  checkCombinations _ _ _ _ _ _ _ := .ok true

open Ex17 in
example : ¬ C102_statement mkAll id (blankPc : PC F17) (fixedRng _) ![1, 3, 4, 5] 2 :=
  C102_violated _ fun _ _ _ _ _ _ _ _ _ => rfl

open Ex17 in
/-- The hypotheses of C102_reveals and C102_tells are met: proofs exist, and the ideal scheme is injective. -/
example : ∃ (pk : ProverKey F17 idealPc) (c : Composer F17) (pf : Proof F17 idealPc),
    prove mkAll idealPc (fixedRng _) pk c = .ok pf ∧ pk.index.info.domain_n.Valid ∧
    ∀ p q : F17[X], (idealPc : PC F17).commit pk.vk.degree p = (idealPc : PC F17).commit pk.vk.degree q → p = q := by
  obtain ⟨c, _, pk, vk, pf, _, _, _, _, _, _, hk, hpf, -⟩ := root_proofs idealPc idealPc_complete
  obtain ⟨i, hi, hpk, -⟩ := keygen_ok hk
  obtain ⟨_, _, hok, -⟩ := index_ok mkAll_ok hi
  exact ⟨pk, c, pf, hpf, by rw [hpk]; exact hok.valid, fun _ _ h => h⟩

open Ex17 in
/-- The hypotheses of C102_partial are met by two different circuits: the second has another variable that is on
no wire. -/
example : ∃ c c' : Composer F17, run (rootOps 3) = some c ∧ run (rootOps 3 ++ [.alloc 7]) = some c' ∧
    c.synthesize mkAll = c'.synthesize mkAll ∧ c.pi = c'.pi := ⟨_, _, rfl, rfl, rfl, rfl⟩

end Zkp.Plonk
