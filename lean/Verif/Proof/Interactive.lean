/- From sets of bad challenges to the number of challenge sequences on which a false statement is accepted. -/
import Mathlib.Data.Fintype.BigOperators
import Mathlib.Data.Fintype.Pi
import Mathlib.Algebra.Order.BigOperators.Group.Finset
import Verif.Proof.SumCheckSound

namespace Zkp.Sc

open Zkp.Ml Zkp.Spartan

set_option linter.unusedSectionVars false
set_option linter.unusedSimpArgs false

variable {F : Type} [Field F] {G : Type} [AddCommGroup G] [Module F G] [DecidableEq F] [DecidableEq G]

/-! ### Counting -/

/-- The vectors that hit, at some position, a set of at most `d` elements determined by the earlier positions. -/
theorem card_hits [Fintype F] (m d : Nat) (B : Fin m → (Fin m → F) → Finset F) (hB : ∀ i f, (B i f).card ≤ d)
    (hdep : ∀ i f g, (∀ j < i, f j = g j) → B i f = B i g) (s : Finset (Fin m → F))
    (hs : ∀ f ∈ s, ∃ i, f i ∈ B i f) : s.card ≤ m * d * Fintype.card F ^ (m - 1) := by
  have hsub : s ⊆ Finset.univ.biUnion fun i => Finset.univ.filter fun f => f i ∈ B i f := by
    intro f hf
    obtain ⟨i, hi⟩ := hs f hf
    simp only [Finset.mem_biUnion, Finset.mem_univ, true_and, Finset.mem_filter]
    exact ⟨i, hi⟩
  refine (Finset.card_le_card hsub).trans (Finset.card_biUnion_le.trans ?_)
  have hone : ∀ i ∈ (Finset.univ : Finset (Fin m)),
      (Finset.univ.filter fun f => f i ∈ B i f).card ≤ d * Fintype.card F ^ (m - 1) := by
    intro i _
    have h1 := Finset.card_le_mul_card_image (s := Finset.univ.filter fun f => f i ∈ B i f)
      (f := fun (f : Fin m → F) (j : {j : Fin m // j ≠ i}) => f j) d ?_
    · refine h1.trans (Nat.mul_le_mul_left _ ?_)
      refine (Finset.card_le_univ _).trans ?_
      rw [Fintype.card_fun, Fintype.card_subtype_compl, Fintype.card_fin, Fintype.card_subtype_eq]
    · intro a ha
      obtain ⟨f0, _, rfl⟩ := Finset.mem_image.1 ha
      refine le_trans ?_ (hB i f0)
      apply Finset.card_le_card_of_injOn (fun f => f i)
      · intro f hf
        simp only [Finset.coe_filter, Finset.mem_filter, Finset.mem_univ, true_and, Set.mem_setOf_eq] at hf
        rw [hdep i f0 f fun j hj => (congrFun hf.2 ⟨j, ne_of_lt hj⟩).symm]
        exact hf.1
      · intro f hf g hg hfg
        simp only [Finset.coe_filter, Finset.mem_filter, Finset.mem_univ, true_and, Set.mem_setOf_eq] at hf hg
        funext j
        by_cases hj : j = i
        · rw [hj]; exact hfg
        · exact congrFun (hf.2.trans hg.2.symm) ⟨j, hj⟩
  refine (Finset.sum_le_sum hone).trans ?_
  rw [Finset.sum_const, Finset.card_univ, Fintype.card_fin, smul_eq_mul, mul_assoc]

/-! ### Challenges from a tape -/

/-- The number of challenges drawn. -/
def numChal : Transcript F G → Nat
  | [] => 0
  | .chal _ :: t => numChal t + 1
  | _ :: t => numChal t

/-- The verifier's challenges when it draws them from a tape, as in the interactive protocol. -/
def tape (cs : List F) : Oracle F G := fun t => cs.getD (numChal t - 1) 0

/-- What was said before challenge number `i`. -/
def before : Nat → Transcript F G → Transcript F G
  | _, [] => []
  | 0, .chal _ :: _ => []
  | i + 1, .chal l :: t => .chal l :: before i t
  | i, m :: t => m :: before i t

theorem numChal_append (a b : Transcript F G) : numChal (a ++ b) = numChal a + numChal b := by
  induction a with
  | nil => simp [numChal]
  | cons m a ih => cases m <;> simp only [List.cons_append, numChal, ih] <;> omega

theorem before_append (a b : Transcript F G) (l : String) : before (numChal a) (a ++ .chal l :: b) = a := by
  induction a with
  | nil => simp [numChal, before]
  | cons m a ih =>
    cases m with
    | chal l => simp only [List.cons_append, numChal, before, ih]
    | _ =>
      simp only [List.cons_append, numChal]
      cases h : numChal a <;> (rw [h] at ih; simp only [before, ih])

theorem drawn_tape (cs : List F) (t : Transcript F G) (h : numChal t ≤ cs.length) :
    drawn (tape cs) t = cs.take (numChal t) := by
  induction t using List.reverseRecOn with
  | nil => simp [drawn, drawnFrom, numChal]
  | append_singleton t m ih =>
    rw [numChal_append] at h ⊢
    have ih := ih (by omega)
    unfold drawn at ih ⊢
    rw [drawnFrom_append, ih]
    cases m with
    | chal l =>
      have h1 : numChal ([.chal l] : Transcript F G) = 1 := rfl
      rw [h1] at h ⊢
      simp only [drawnFrom, tape, List.nil_append, List.append_nil, numChal_append, h1, Nat.add_sub_cancel]
      rw [List.take_add_one, List.getElem?_eq_getElem (by omega), List.getD_eq_getElem _ _ (by omega)]
      rfl
    | _ => simp [drawnFrom, numChal]

/-- If every accepted run of a prover against tapes of length `m` hits a set of at most `d` elements determined by
what was said and drawn before, and what the prover says before each challenge depends only on the earlier
challenges, then at most a fraction `m · d / |F|` of the tapes is accepted. -/
theorem card_accepted [Fintype F] (m d : Nat) (bad : Transcript F G → List F → Finset F) (hb : ∀ t vs, (bad t vs).card ≤ d)
    (start : Transcript F G) (hstart : numChal start = 0)
    (Acc : (Fin m → F) → Transcript F G → Prop) (hlen : ∀ f tr, Acc f tr → numChal tr ≤ m)
    (hcausal : ∀ f g tr tr', Acc f tr → Acc g tr' → ∀ i : Fin m, (∀ j < i, f j = g j) → before i tr = before i tr')
    (hhit : ∀ f tr, Acc f tr → Hit (tape (List.ofFn f)) bad start tr)
    (s : Finset (Fin m → F)) (hs : ∀ f ∈ s, ∃ tr, Acc f tr) : s.card ≤ m * d * Fintype.card F ^ (m - 1) := by
  classical
  let Q : Fin m → (Fin m → F) → Transcript F G → Prop := fun i f tr => ∃ g, (∀ j < i, f j = g j) ∧ Acc g tr
  let B : Fin m → (Fin m → F) → Finset F := fun i f =>
    if h : ∃ tr, Q i f tr then bad (before i h.choose) ((List.ofFn f).take i) else ∅
  refine card_hits m d B ?_ ?_ s ?_
  · intro i f
    simp only [B]
    split_ifs
    · exact hb _ _
    · simp
  · intro i f g hfg
    have hQ : Q i f = Q i g := by
      funext tr
      apply propext
      constructor
      · rintro ⟨k, h1, h2⟩
        exact ⟨k, fun j hj => (hfg j hj).symm.trans (h1 j hj), h2⟩
      · rintro ⟨k, h1, h2⟩
        exact ⟨k, fun j hj => (hfg j hj).trans (h1 j hj), h2⟩
    have ht : (List.ofFn f).take i = (List.ofFn g).take i := by
      apply List.ext_getElem
      · simp
      · intro k h1 h2
        simp only [List.length_take, List.length_ofFn] at h1
        simp only [List.getElem_take, List.getElem_ofFn]
        exact hfg ⟨k, by omega⟩ (by rw [Fin.lt_def]; simp only; omega)
    simp only [B, hQ, ht]
  · intro f hf
    obtain ⟨tr, htr⟩ := hs f hf
    obtain ⟨t, l, _, h2, h3⟩ := hhit f tr htr
    obtain ⟨b, hb'⟩ := h2
    have hnum : numChal t + 1 ≤ m := by
      have := hlen f tr htr
      rw [← hb', numChal_append, numChal_append] at this
      have h1 : numChal ([.chal l] : Transcript F G) = 1 := rfl
      omega
    refine ⟨⟨numChal t, by omega⟩, ?_⟩
    have hex : ∃ tr, Q ⟨numChal t, by omega⟩ f tr := ⟨tr, f, fun _ _ => rfl, htr⟩
    simp only [B]
    rw [dif_pos hex]
    obtain ⟨g, hg1, hg2⟩ := hex.choose_spec
    have e1 : before (numChal t) hex.choose = t := by
      rw [← hcausal f g tr hex.choose htr hg2 ⟨numChal t, by omega⟩ hg1]
      rw [← hb', List.append_assoc]
      exact before_append t b l
    rw [e1]
    rw [drawn_tape _ _ (by simp; omega)] at h3
    have e2 : tape (List.ofFn f) (t ++ [.chal l]) = f ⟨numChal t, by omega⟩ := by
      have h1 : numChal ([.chal l] : Transcript F G) = 1 := rfl
      unfold tape
      rw [numChal_append, h1, Nat.add_sub_cancel, List.getD_eq_getElem _ _ (by simp; omega), List.getElem_ofFn]
    rw [← e2]
    exact h3

end Zkp.Sc
