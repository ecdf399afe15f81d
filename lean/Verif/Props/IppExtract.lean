/- Property C106: the inner-product argument of Bulletproofs is an argument of knowledge. -/
import Verif.Proof.IppExtract
import Verif.Proof.F17

set_option linter.unusedSectionVars false
set_option linter.unusedSimpArgs false

namespace Zkp

open Bp

variable {F : Type} [Field F] [DecidableEq F]

/-- Coefficients as lists. -/
def Bp.Found.lists (n : Nat) : Found F → (List F × List F) ⊕ (List F × List F × F)
  | .opening r => .inl ((List.range n).map r.1, (List.range n).map r.2.1)
  | .relation r => .inr ((List.range n).map r.1, (List.range n).map r.2.1, r.2.2)

section
variable {G : Type} [AddCommGroup G] [Module F G]

theorem Bp.msm_range (g : List G) (n : Nat) (hg : g.length = n) (f : Nat → F) :
    msm g ((List.range n).map f) = ∑ i ∈ Finset.range n, f i • g.getD i 0 := by
  rw [msm_eq_sum g _ n (by simp)]
  refine Finset.sum_congr rfl fun i hi => ?_
  have hi := Finset.mem_range.mp hi
  rw [range_map_getD, if_pos hi]

theorem Bp.msm_sends (n : Nat) (xs : List F) (hl : xs.length = n) (f : Nat → G) (c : F → F) :
    msm ((List.range n).map f) (xs.map c) = ((List.range n).map fun i => c (xs.getD i 0) • f i).sum := by
  unfold msm
  congr 1
  refine List.ext_getElem (by simp [hl]) fun i h1 h2 => ?_
  have hi : i < xs.length := by rw [hl]; simpa using h2
  simp [List.getElem?_eq_getElem hi]

end

/-- C106.  For every number of rounds there is an extractor, the same for all groups, that sees only the scalars of
the prover, such that: if the verifier accepts the prover's proofs for `P` along a tree of challenges (four after
each history, not zero, with different squares), then the extractor finds vectors `a`, `b` with
`P = Σ aᵢgᵢ + Σ bᵢhᵢ + ⟨a,b⟩u`, or a relation between the generators with coefficients that are not all zero. -/
theorem C106 (k : Nat) : ∃ ext : (List F → F × F) → (List F → Fin 4 → F) →
      (List F × List F) ⊕ (List F × List F × F),
    ∀ (G : Type) [AddCommGroup G] [Module F G] [DecidableEq G] (g h : List G) (u P : G) (s : Replies F G)
      (X : List F → Fin 4 → F), g.length = 2 ^ k → h.length = 2 ^ k → (∀ past, Apart (X past)) →
      (∀ xs, xs.length = k → OnTree X xs → ∃ (ch : Oracle F G) (tr : Transcript F G),
        ippChallenges ch (tr ++ ippStart (2 ^ k) u P g h) (s.along xs).L_vec (s.along xs).R_vec = some xs ∧
        ippVerify ch tr g h u P (s.along xs) = some true) →
      match ext s.last X with
      | .inl (a, b) => a.length = 2 ^ k ∧ b.length = 2 ^ k ∧
          P = msm g a + msm h b + (List.zipWith (· * ·) a b).sum • u
      | .inr (a, b, c) => a.length = 2 ^ k ∧ b.length = 2 ^ k ∧ ((∃ x ∈ a, x ≠ 0) ∨ (∃ x ∈ b, x ≠ 0) ∨ c ≠ 0) ∧
          msm g a + msm h b + c • u = 0 := by
  refine ⟨fun last X => (extract k last X).lists (2 ^ k), ?_⟩
  intro G _ _ _ g h u P s X hg hh hX hacc
  have good : (extract k s.last X).Good (2 ^ k) (fun i => g.getD i 0) (fun i => h.getD i 0) u P := by
    refine extract_good k _ _ u P s X hX fun xs hl ht => ?_
    obtain ⟨ch, tr, hch, hv⟩ := hacc xs hl ht
    have hne : ∀ x ∈ xs, x ≠ 0 := by
      intro x hx
      obtain ⟨i, hi, rfl⟩ := List.getElem_of_mem hx
      obtain ⟨j, hj⟩ := ht i hi
      rw [hj]
      exact (hX _).1 j
    have hL : (s.along xs).L_vec.length = k := by simp [Replies.along, hl]
    have hR : (s.along xs).R_vec.length = k := by simp [Replies.along, hl]
    unfold ippVerify at hv
    rw [if_neg (by rw [hL, hR]; simp)] at hv
    simp only at hv
    rw [hL, hch, Option.map_some, ippS_eq xs hne, sRec_reverse] at hv
    have hv := beq_iff_eq.mp (Option.some.inj hv)
    have hsum : ∀ (c : F) (ys : List F) (g : List G), ys.length = k → g.length = 2 ^ k →
        msm g ((sRec ys).map fun x => c * x) = ∑ i ∈ Finset.range (2 ^ k), (c * (sRec ys).getD i 0) • g.getD i 0 := by
      intro c ys g hy hg
      rw [msm_eq_sum g _ (2 ^ k) (by simp [hy])]
      refine Finset.sum_congr rfl fun i _ => ?_
      rw [map_mul_getD]
    rw [hsum _ _ _ hl hg, hsum _ _ _ (by simp [hl]) hh] at hv
    have eL : msm (s.along xs).L_vec (xs.map fun x => x * x) =
        ((List.range k).map fun i => (xs.getD i 0 ^ 2) • (s.send (xs.take i)).1).sum := by
      simp only [Replies.along, hl]
      rw [msm_sends k xs hl]
      simp only [pow_two]
    have eR : msm (s.along xs).R_vec (xs.map fun x => x⁻¹ * x⁻¹) =
        ((List.range k).map fun i => ((xs.getD i 0)⁻¹ ^ 2) • (s.send (xs.take i)).2).sum := by
      simp only [Replies.along, hl]
      rw [msm_sends k xs hl]
      simp only [pow_two]
    rw [eL, eR] at hv
    exact hv
  beta_reduce
  revert good
  cases extract k s.last X with
  | opening r =>
    rintro ⟨hv, hc⟩
    show _ ∧ _ ∧ _
    refine ⟨by simp, by simp, ?_⟩
    rw [msm_range g _ hg, msm_range h _ hh]
    have : (List.zipWith (· * ·) ((List.range (2 ^ k)).map r.1) ((List.range (2 ^ k)).map r.2.1)).sum = r.2.2 := by
      rw [hc]
      exact ip_range _ _ _
    rw [this]
    exact hv.symm
  | relation r =>
    rintro ⟨hv, hc⟩
    show _ ∧ _ ∧ _ ∧ _
    refine ⟨by simp, by simp, ?_, ?_⟩
    · by_contra hn
      push Not at hn
      obtain ⟨h1, h2, h3⟩ := hn
      exact hc ⟨fun i hi => h1 _ (List.mem_map_of_mem (List.mem_range.mpr hi)),
        fun i hi => h2 _ (List.mem_map_of_mem (List.mem_range.mpr hi)), h3⟩
    · rw [msm_range g _ hg, msm_range h _ hh]
      exact hv

namespace Ex106

/-- The honest prover for the vectors 1, 2 and 3, 1, as a function of the challenge. -/
def replies : Replies F17 F17 where
  send _ := (10, 10)
  last xs := (xs.getD 0 0 + 2 * (xs.getD 0 0)⁻¹, 3 * (xs.getD 0 0)⁻¹ + xs.getD 0 0)

/-- The four challenges. -/
def four : List F17 → Fin 4 → F17 := fun _ => ![1, 2, 3, 4]

/-- The proofs for all four challenges are accepted, and the extractor finds the vectors. -/
example : (∀ past, Apart (four past)) ∧
    (∀ xs, xs.length = 1 → OnTree four xs → ∃ (ch : Oracle F17 F17) (tr : Transcript F17 F17),
      ippChallenges ch (tr ++ ippStart (2 ^ 1) 5 9 [1, 2] [3, 4]) (replies.along xs).L_vec (replies.along xs).R_vec
        = some xs ∧
      ippVerify ch tr [1, 2] [3, 4] 5 9 (replies.along xs) = some true) ∧
    (extract 1 replies.last four).lists 2 = .inl ([1, 2], [3, 1]) := by
  refine ⟨fun past => ⟨by unfold four; decide, by unfold four; decide⟩, fun xs hl ht => ?_, by decide +kernel⟩
  match xs, hl with
  | [x], _ =>
    obtain ⟨j, hj⟩ := ht 0 (by simp)
    simp only [List.getElem_cons_zero, List.take_zero] at hj
    subst hj
    refine ⟨fun _ => four [] j, [], ?_⟩
    clear ht
    revert j
    decide +kernel

end Ex106

end Zkp
