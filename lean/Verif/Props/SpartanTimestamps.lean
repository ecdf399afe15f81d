/- C50: Spartan's timestamp checks. -/
import Verif.Model.SpartanSnark
import Verif.Proof.Multilinear
import Verif.Proof.F17

namespace Zkp.Spartan

open Zkp.Ml

set_option linter.unusedSectionVars false
set_option linter.unusedSimpArgs false

variable {F : Type} [Field F] [DecidableEq F]

/-- The fingerprint of a cell at the two challenges. -/
def readHash (g1 g2 a v t : F) : F := a * g1 ^ 2 + v * g1 + t - g2

/-- The evaluation at `r` of the table `0, 1, 2, …` of addresses. -/
def addrEval (r : List F) : F :=
  ((List.range r.length).map fun i => r.getD i 0 * ((2 ^ (r.length - i - 1) : Nat) : F)).sum

theorem guard_some (p : Prop) [Decidable p] : (guard p : Option Unit) = some () ↔ p := by
  by_cases h : p <;> simp [guard, h]

theorem unit_bind {β : Type} (o : Option Unit) (f : Unit → Option β) (b : β) :
    o.bind f = some b ↔ o = some () ∧ f () = some b := by
  cases o <;> simp

theorem forM_some (l : List Nat) (f : Nat → Option Unit) :
    (l.forM f : Option Unit) = some () ↔ ∀ i ∈ l, f i = some () := by
  induction l with
  | nil => simp [pure]
  | cons x l ih =>
    change (f x >>= fun _ => l.forM f) = some () ↔ _
    cases hx : f x with
    | none => simp [hx]
    | some u => simpa [hx] using ih

/-- What `behind_verify_for_timestamp` checks for all shapes of its arguments. -/
theorem C50_actual (randsMem : List F) (claims : MemClaims F) (r vals addrs readTs : List F) (auditTs g1 g2 : F) :
    behindVerify randsMem claims r vals addrs readTs auditTs g1 g2 = some () ↔
      ∃ val, evalEqXY r randsMem = some val ∧
      claims.init = readHash g1 g2 (addrEval randsMem) val 0 ∧
      claims.audit = readHash g1 g2 (addrEval randsMem) val auditTs ∧
      ∀ i < addrs.length, ∃ a v t c d, addrs[i]? = some a ∧ vals[i]? = some v ∧ readTs[i]? = some t ∧
        claims.read[i]? = some c ∧ claims.write[i]? = some d ∧
        c = readHash g1 g2 a v t ∧ d = readHash g1 g2 a v (t + 1) := by
  unfold behindVerify
  cases hv : evalEqXY r randsMem with
  | none => simp
  | some val =>
    simp only [Option.bind_eq_bind, Option.bind_some, unit_bind]
    simp only [forM_some, guard_some, List.mem_range, Option.bind_eq_some_iff]
    constructor
    · rintro ⟨h1, h2, h3, h4⟩
      refine ⟨val, rfl, by rw [h1]; unfold readHash addrEval; ring, by rw [h4]; unfold readHash addrEval; ring, ?_⟩
      intro i hi
      obtain ⟨a, ha, v, hv, t, ht, c, hc, e⟩ := h2 i hi
      obtain ⟨a', ha', v', hv', t', ht', d, hd, e'⟩ := h3 i hi
      cases ha.symm.trans ha'
      cases hv.symm.trans hv'
      cases ht.symm.trans ht'
      exact ⟨a, v, t, c, d, ha, hv, ht, hc, hd, by rw [e]; unfold readHash; ring, by rw [e']; unfold readHash; ring⟩
    · rintro ⟨val', hval, h1, h4, h⟩
      cases hval
      refine ⟨by rw [h1]; unfold readHash addrEval; ring, ?_, ?_, by rw [h4]; unfold readHash addrEval; ring⟩
      · intro i hi
        obtain ⟨a, v, t, c, d, ha, hv, ht, hc, hd, e, e'⟩ := h i hi
        exact ⟨a, ha, v, hv, t, ht, c, hc, by rw [e]; unfold readHash; ring⟩
      · intro i hi
        obtain ⟨a, v, t, c, d, ha, hv, ht, hc, hd, e, e'⟩ := h i hi
        exact ⟨a, ha, v, hv, t, ht, d, hd, by rw [e']; unfold readHash; ring⟩

/-- C50 fails: a proof without address evaluations has none of its reads and writes checked: whatever
read and write claims came out of the product circuits are accepted, for all challenges, as long as the
initial and final claims are right. -/
theorem C50_violated (randsMem r : List F) (hl : r.length = randsMem.length) (read write vals readTs : List F)
    (auditTs g1 g2 : F) :
    ∃ val, evalEqXY r randsMem = some val ∧
      behindVerify randsMem ⟨readHash g1 g2 (addrEval randsMem) val 0, read, write,
        readHash g1 g2 (addrEval randsMem) val auditTs⟩ r vals [] readTs auditTs g1 g2 = some () := by
  obtain ⟨val, hv⟩ : ∃ val, evalEqXY r randsMem = some val := by
    unfold evalEqXY; rw [if_neg (by simp [hl])]; exact ⟨_, rfl⟩
  exact ⟨val, hv, (C50_actual _ _ _ _ _ _ _ _ _).2 ⟨val, hv, rfl, rfl, by simp⟩⟩

/-- The address evaluations can be moved to the list of read times without changing what is opened
against the commitment, so an honest opening still passes (verify.rs:938-945). -/
theorem C50_same_opening {G : Type} [AddCommGroup G] [Module F G] (ch : Oracle F G) (ra rt ca ct vals : List F) :
    (foldEvals ch "claim_evals_ops" "challenge_combine_n_to_one" (ra ++ rt ++ ca ++ ct ++ vals) :
      Vf F G (List F × F)) =
    foldEvals ch "claim_evals_ops" "challenge_combine_n_to_one" ([] ++ (ra ++ rt ++ ca ++ ct) ++ [] ++ [] ++ vals) := by
  simp

/-- Reads claimed as 5 and 6, writes as 7 and 8, at a point of two coordinates. -/
example : ∃ val, evalEqXY ([2, 3] : List F17) [4, 5] = some val ∧
    behindVerify [4, 5] ⟨readHash 2 3 (addrEval [4, 5]) val 0, [5, 6, 6], [7, 8, 8],
      readHash 2 3 (addrEval [4, 5]) val 9⟩ ([2, 3] : List F17) [1, 1, 1] [] [1, 1, 1] 9 2 3 = some () :=
  C50_violated [4, 5] [2, 3] rfl _ _ _ _ _ _ _

/-- With one address evaluation for each read and write claim, all of them are checked, and both ends.

Partial: the full claim has no hypothesis on the number of address evaluations, which comes from the
proof; without it the claim is false (`C50_violated`). -/
theorem C50_partial (randsMem : List F) (claims : MemClaims F) (r vals addrs readTs : List F) (auditTs g1 g2 : F)
    (hr : addrs.length = claims.read.length) (hw : claims.write.length = claims.read.length)
    (h : behindVerify randsMem claims r vals addrs readTs auditTs g1 g2 = some ()) :
    (∀ i < claims.read.length, ∃ a v t, addrs[i]? = some a ∧ vals[i]? = some v ∧ readTs[i]? = some t ∧
      claims.read[i]? = some (readHash g1 g2 a v t) ∧ claims.write[i]? = some (readHash g1 g2 a v (t + 1))) ∧
    ∃ val, evalEqXY r randsMem = some val ∧ claims.init = readHash g1 g2 (addrEval randsMem) val 0 ∧
      claims.audit = readHash g1 g2 (addrEval randsMem) val auditTs := by
  obtain ⟨val, h1, h2, h3, h4⟩ := (C50_actual _ _ _ _ _ _ _ _ _).1 h
  refine ⟨?_, val, h1, h2, h3⟩
  intro i hi
  obtain ⟨a, v, t, c, d, e1, e2, e3, e4, e5, rfl, rfl⟩ := h4 i (by omega)
  exact ⟨a, v, t, e1, e2, e3, e4, e5⟩

/-- One read of address 1, value 6, time 0. -/
example : behindVerify [4, 5] ⟨readHash 2 3 (addrEval [4, 5]) 15 0, [readHash 2 3 1 6 0], [readHash 2 3 1 6 1],
      readHash 2 3 (addrEval [4, 5]) 15 9⟩ ([2, 3] : List F17) [6] [1] [0] 9 2 3 = some () ∧
    ∃ a v t : F17, [(1 : F17)][0]? = some a ∧ [(6 : F17)][0]? = some v ∧ [(0 : F17)][0]? = some t := by
  have h : behindVerify [4, 5] ⟨readHash 2 3 (addrEval [4, 5]) 15 0, [readHash 2 3 1 6 0], [readHash 2 3 1 6 1],
      readHash 2 3 (addrEval [4, 5]) 15 9⟩ ([2, 3] : List F17) [6] [1] [0] 9 2 3 = some () := by
    refine (C50_actual _ _ _ _ _ _ _ _ _).2 ⟨15, by decide, rfl, rfl, ?_⟩
    intro i hi
    obtain rfl : i = 0 := by simpa using hi
    exact ⟨1, 6, 0, _, _, rfl, rfl, rfl, rfl, rfl, rfl, by simp⟩
  obtain ⟨a, v, t, h1, h2, h3, _⟩ := (C50_partial _ _ _ _ _ _ _ _ _ (by rfl) (by rfl) h).1 0 (by simp)
  exact ⟨h, a, v, t, h1, h2, h3⟩

end Zkp.Spartan
