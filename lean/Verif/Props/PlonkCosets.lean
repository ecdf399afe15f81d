/- C119: the multipliers given to Plonk's key generation. -/
import Verif.Props.PlonkComplete

set_option linter.unusedSectionVars false
set_option linter.unusedSimpArgs false

namespace Zkp.Plonk

open Polynomial

variable {F : Type} [Field F] [DecidableEq F]

/-- Distinct positions of the circuit have distinct labels: the cosets `ks_j · ⟨ω⟩` are disjoint. -/
def DistinctLabels (D : Domain F) (ks : Fin 4 → F) : Prop :=
  ∀ p q : Fin 4 × Fin D.size, D.ω ^ p.2.1 * ks p.1 = D.ω ^ q.2.1 * ks q.1 → p = q

/-- Both wires of one gate are to carry the same variable, whose square is to be 3.  `v` is the value the composer
was given for the variable. -/
def squareOps (v : F17) : List (Op F17) := [.alloc v, .poly (1, 0) (1, 0) (0, 0) none 1 14 0]

theorem squareOps_unsat (v : F17) : ¬ Satisfiable (squareOps v) [] := by
  rintro ⟨a, ha⟩
  have h := ha 0 _ (show _ = some (Op.poly (1, 0) (1, 0) (0, 0) none 1 14 0) from rfl)
  simp only [Op.Rel, auxTerm, List.getD_nil, zero_mul, add_zero, one_mul] at h
  revert h
  generalize a 1 = x
  revert x
  decide

open Ex17 in
/-- C119 is violated: key generation returns keys for multipliers that are all 1, and then both wires of a gate may
carry different values: for a circuit that cannot be satisfied there are wire polynomials, fixed before any challenge,
that are accepted for all challenges (other than `ζ = 1`, for which the verifier panics). -/
theorem C119_violated : ∃ (c : Composer F17) (pk : ProverKey F17 idealPc) (vk : VerifierKey F17 idealPc),
    run (squareOps 0) = some c ∧ keygen mkAll id (idealPc : PC F17) 1 c ![1, 1, 1, 1] = .ok (pk, vk) ∧
    ¬ DistinctLabels vk.info.domain_n ![1, 1, 1, 1] ∧ ¬ Satisfiable (squareOps 0) [] ∧
    ∃ (w0 w1 w2 w3 z : F17[X]) (t0 t1 t2 t3 : F17 → F17 → F17 → F17[X]),
      (∀ β γ α, ∀ p ∈ (Msgs.mk w0 w1 w2 w3 z (t0 β γ α) (t1 β γ α) (t2 β γ α) (t3 β γ α)).polys,
        p.2.natDegree ≤ pk.index.info.domain_n.size) ∧
      ∀ β γ α ζ, ζ ≠ 1 → Accepted pk.index [] ⟨β, γ, α, ζ⟩
        ⟨w0, w1, w2, w3, z, t0 β γ α, t1 β γ α, t2 β γ α, t3 β γ α⟩ := by
  have hc : ∃ c, run (squareOps 0) = some c ∧ c.compose mkAll id ![1, 1, 1, 1] =
      .ok ⟨1, [0], [0], [0], [0], [1], [14], [1], [1], [1], [1], [1]⟩ := ⟨_, rfl, rfl⟩
  obtain ⟨c, hc, hs⟩ := hc
  obtain ⟨i, hi⟩ := index_success mkAll_ok hs (D := ⟨1, 1, 3⟩) (D4 := ⟨4, 4, 3⟩) rfl rfl
  have hdom : i.info.domain_n = ⟨1, 1, 3⟩ := (Option.some.inj (index_domain hi hs)).symm
  obtain ⟨s', hs', hok, -⟩ := index_ok mkAll_ok hi
  rw [hs] at hs'
  have := Except.ok.inj hs'
  subst this
  have hsz : i.info.domain_n.size = 1 := by rw [hdom]
  have hnn : i.info.n = i.info.domain_n.size := by rw [hok.n, hok.size]
  let vk : VerifierKey F17 idealPc :=
    ⟨i.polys.map fun p => idealPc.commit i.info.n p.2, i.polys.map (·.1), i.info.n, i.info⟩
  have hk : keygen mkAll id (idealPc : PC F17) 1 c ![1, 1, 1, 1] = .ok (⟨vk, i⟩, vk) := by
    unfold keygen
    rw [hi]
    simp only [bind, Except.bind]
    rw [if_neg (by rw [hok.n]; show ¬ 1 < 1; omega)]
  let t : F17 → F17 → F17 → List F17 := fun β γ α => quotient i [0] 0 (C 1) (C 3) (C 0) 1 β γ α
  have htlen : ∀ β γ α, (t β γ α).length ≤ 4 * i.info.domain_n.size := by
    intro β γ α
    simp only [t]
    unfold quotient
    simp only [Domain.cosetIfft_length]
    rw [hok.size4, hok.size]
  have hpos := hok.valid.pos
  refine ⟨c, ⟨vk, i⟩, vk, hc, hk, ?_, squareOps_unsat 0, 0, C 1, C 3, C 0, 1,
    fun β γ α => (quadSplit i.info.domain_n.size (t β γ α)).1,
    fun β γ α => (quadSplit i.info.domain_n.size (t β γ α)).2.1,
    fun β γ α => (quadSplit i.info.domain_n.size (t β γ α)).2.2.1,
    fun β γ α => (quadSplit i.info.domain_n.size (t β γ α)).2.2.2, ?_, ?_⟩
  · intro h
    have := h (0, ⟨0, hpos⟩) (1, ⟨0, hpos⟩) (by simp)
    exact (show (0 : Fin 4) ≠ 1 by decide) (congrArg Prod.fst this)
  · intro β γ α p hp
    have hch := fun p => (C42 hpos (t β γ α) (htlen β γ α) 0).2 p
    simp only [Msgs.polys, List.mem_cons, List.not_mem_nil, or_false] at hp
    rcases hp with rfl | rfl | rfl | rfl | rfl | rfl | rfl | rfl | rfl
    · simp
    · simp
    · simp
    · simp
    · simp
    · exact (hch ("t_0", _) (by simp [quotientPolys])).le
    · exact (hch ("t_1", _) (by simp [quotientPolys])).le
    · exact (hch ("t_2", _) (by simp [quotientPolys])).le
    · exact (hch ("t_3", _) (by simp [quotientPolys])).le
  · intro β γ α ζ hζ
    refine Accepted.of_identity hok.valid (by simp) hζ ?_
    dsimp only
    rw [hnn, tValue_eq (htlen β γ α) rfl rfl rfl rfl]
    have hpi : ([] ++ List.replicate (i.info.domain_n.size - ([] : List F17).length) 0 : List F17) = [0] := by
      rw [hsz]
      rfl
    rw [hpi]
    have hz : (0 : F17[X]).natDegree < i.info.domain_n.size := by simpa using hpos
    have key := quotient_eq hok [0] (w0 := 0) (w1 := C 1) (w2 := C 3) (w3 := C 0) (z := 1) hz (by simpa using hpos)
      (by simpa using hpos) (by simpa using hpos)
      (by simpa using hpos) β γ α (by
        intro k hk
        rw [checkPoly_element hok _ _ _ _ _ _ _ _ _ hk, interpolate_element hok.valid _ hk]
        have hk0 : k = 0 := by omega
        subst hk0
        simp only [eval_zero, eval_C, eval_one, pow_zero, List.getD_cons_zero, if_true, mul_one, mul_zero, zero_add]
        have e : (![1, 1, 1, 1] : Fin 4 → F17) 0 = 1 ∧ (![1, 1, 1, 1] : Fin 4 → F17) 1 = 1 ∧
          (![1, 1, 1, 1] : Fin 4 → F17) 2 = 1 ∧ (![1, 1, 1, 1] : Fin 4 → F17) 3 = 1 := ⟨rfl, rfl, rfl, rfl⟩
        rw [e.1, e.2.1, e.2.2.1, e.2.2.2]
        have e17 : (3 : F17) + 14 = 0 := by decide
        linear_combination e17)
    have := congrArg (eval ζ) key
    rw [eval_mul, eval_sub, eval_pow, eval_X, eval_one] at this
    exact this.symm

/-- C119, the part that holds: with multipliers that give distinct labels the key binds the copy constraints, so that
no prover is accepted for all challenges from a large set unless the circuit can be satisfied.

Missing for the full statement: `keygen` does not check the multipliers, see `C119_violated`. -/
theorem C119_partial {mk : Nat → Option (Domain F)} (hmk : MkOk mk) {order : List (List Wire) → List (List Wire)}
    (ho : ∀ l, (order l).Perm l) {ks : Fin 4 → F} {ops : List (Op F)} {c : Composer F} (h : run ops = some c)
    {pc : PC F} {maxDegree : Nat} {pk : ProverKey F pc} {vk : VerifierKey F pc}
    (hk : keygen mk order pc maxDegree c ks = .ok (pk, vk)) (hks : DistinctLabels vk.info.domain_n ks)
    {pi : List F} (hbad : ¬ Satisfiable ops pi) {w0 w1 w2 w3 : F[X]} {z : F → F → F[X]}
    {t0 t1 t2 t3 : F → F → F → F[X]} {S : Finset F} (hS : 5 * vk.info.domain_n.size < S.card)
    (hdeg : ∀ β γ α, ∀ p ∈ (Msgs.mk w0 w1 w2 w3 (z β γ) (t0 β γ α) (t1 β γ α) (t2 β γ α) (t3 β γ α)).polys,
      p.2.natDegree ≤ vk.info.domain_n.size) :
    ∃ β ∈ S, ∃ γ ∈ S, ∃ α ∈ S, ∃ ζ ∈ S, ¬ Accepted pk.index pi ⟨β, γ, α, ζ⟩
      ⟨w0, w1, w2, w3, z β γ, t0 β γ α, t1 β γ α, t2 β γ α, t3 β γ α⟩ := by
  unfold keygen at hk
  obtain ⟨i, hi, hk⟩ := except_bind hk
  split at hk
  · exact absurd hk (by simp)
  · have e := Except.ok.inj hk
    simp only [Prod.mk.injEq] at e
    obtain ⟨rfl, rfl⟩ := e
    by_contra hcon
    push Not at hcon
    exact hbad (C43_partial hmk ho h hi hks hS hdeg hcon)

open Ex17 in
/-- All hypotheses of C119_partial are met by the circuit of C119_violated, with good multipliers and the same wire
values: now some challenges are not accepted. -/
example : ∃ (c : Composer F17) (pk : ProverKey F17 idealPc) (vk : VerifierKey F17 idealPc),
    run (squareOps 0) = some c ∧ keygen mkAll id (idealPc : PC F17) 1 c ![1, 3, 4, 5] = .ok (pk, vk) ∧
    DistinctLabels vk.info.domain_n ![1, 3, 4, 5] ∧ 5 * vk.info.domain_n.size < (Finset.univ.erase (1 : F17)).card ∧
    ∀ t0 t1 t2 t3 : F17, ∃ β ∈ Finset.univ.erase (1 : F17), ∃ γ ∈ Finset.univ.erase (1 : F17),
      ∃ α ∈ Finset.univ.erase (1 : F17), ∃ ζ ∈ Finset.univ.erase (1 : F17),
      ¬ Accepted pk.index [] ⟨β, γ, α, ζ⟩ ⟨0, C 1, C 3, C 0, 1, C t0, C t1, C t2, C t3⟩ := by
  have hc : ∃ c, run (squareOps 0) = some c ∧ c.compose mkAll id ![1, 3, 4, 5] =
      .ok ⟨1, [0], [0], [0], [0], [1], [14], [1], [5], [4], [3], [1]⟩ := ⟨_, rfl, rfl⟩
  obtain ⟨c, hc, hs⟩ := hc
  obtain ⟨i, hi⟩ := index_success mkAll_ok hs (D := ⟨1, 1, 3⟩) (D4 := ⟨4, 4, 3⟩) rfl rfl
  have hdom : i.info.domain_n = ⟨1, 1, 3⟩ := (Option.some.inj (index_domain hi hs)).symm
  obtain ⟨s', hs', hok, -⟩ := index_ok mkAll_ok hi
  rw [hs] at hs'
  have := Except.ok.inj hs'
  subst this
  let vk : VerifierKey F17 idealPc :=
    ⟨i.polys.map fun p => idealPc.commit i.info.n p.2, i.polys.map (·.1), i.info.n, i.info⟩
  have hk : keygen mkAll id (idealPc : PC F17) 1 c ![1, 3, 4, 5] = .ok (⟨vk, i⟩, vk) := by
    unfold keygen
    rw [hi]
    simp only [bind, Except.bind]
    rw [if_neg (by rw [hok.n]; show ¬ 1 < 1; omega)]
  have hl : DistinctLabels vk.info.domain_n ![1, 3, 4, 5] := by
    unfold DistinctLabels
    rw [show vk.info.domain_n = ⟨1, 1, 3⟩ from hdom]
    decide
  have hS : 5 * vk.info.domain_n.size < (Finset.univ.erase (1 : F17)).card := by
    rw [show vk.info.domain_n = ⟨1, 1, 3⟩ from hdom]
    decide
  refine ⟨c, ⟨vk, i⟩, vk, hc, hk, hl, hS, fun t0 t1 t2 t3 => ?_⟩
  refine C119_partial mkAll_ok (fun l => List.Perm.refl l) hc hk hl (squareOps_unsat 0) (z := fun _ _ => 1)
    (t0 := fun _ _ _ => C t0) (t1 := fun _ _ _ => C t1) (t2 := fun _ _ _ => C t2) (t3 := fun _ _ _ => C t3) hS ?_
  intro β γ α p hp
  simp only [Msgs.polys, List.mem_cons, List.not_mem_nil, or_false] at hp
  rcases hp with rfl | rfl | rfl | rfl | rfl | rfl | rfl | rfl | rfl <;> simp

end Zkp.Plonk
