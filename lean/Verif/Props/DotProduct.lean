/- C57 for `DotProductProof`: exactly which honest proofs are accepted when both sides get the same challenge. -/
import Verif.Props.CommitProofs
import Verif.Proof.SumCheckHiding

namespace Zkp.Cp

open Zkp.Ml Zkp.Spartan
open Zkp.Sc (commitVec_lin)

set_option linter.unusedSectionVars false
set_option linter.unusedSimpArgs false

variable {F : Type} [Field F] {G : Type} [AddCommGroup G] [Module F G] [DecidableEq F] [DecidableEq G]

/-- The honest proof of a true statement is accepted exactly when the product of all the terms `(c·xᵢ + dᵢ)·aᵢ` happens to be
`c` times the dot product plus the product of all the `aᵢ·dᵢ`. (With sums instead of products this holds always.) -/
theorem C57_dot_exact (ch : Oracle F G) (params : PcParams G) (hh : params.genN.h = params.gen1.h) (g : G) (gs : List G)
    (hg : params.gen1.generators = g :: gs) (hg0 : ∀ u : F, u • g = 0 → u = 0) (x a d : List F) (blindX blindY rBeta rDelta c : F)
    (ha : a.length = x.length) (hd : d.length = x.length) (hn : x.length ≤ params.n) (hch : ∀ t, ch t = c) (tr : Transcript F G) :
    ∃ proof cx cy tr' tr'' b, linDotProve ch params x blindX a (dot x a) blindY d rBeta rDelta tr = .ok ((proof, cx, cy), tr') ∧
      linDotVerify ch params cx cy a proof tr = .ok (b, tr'') ∧
      (b = true ↔ c * dot x a + (List.zipWith (· * ·) a d).prod =
        (List.zipWith (· * ·) (List.zipWith (fun x d => c * x + d) x d) a).prod) := by
  have h : Runs (linDotProve ch params x blindX a (dot x a) blindY d rBeta rDelta) tr (fun p _ =>
      p = (⟨List.zipWith (fun x d => c * x + d) x d, commitVec params.genN.generators d params.genN.h rDelta,
        commitVec params.gen1.generators [(List.zipWith (· * ·) a d).prod] params.gen1.h rBeta, c * blindX + rDelta,
        c * blindY + rBeta⟩, commitVec params.genN.generators x params.genN.h blindX,
        commitVec params.gen1.generators [dot x a] params.gen1.h blindY)) := by
    unfold linDotProve
    refine (Runs.ensure (by simp [ha])).bind fun _ _ _ => (Runs.ensure (by simpa [ha] using hn)).bind fun _ _ _ =>
      Runs.say.bind fun _ _ _ => Runs.say.bind fun _ _ _ => Runs.say.bind fun _ _ _ => Runs.say.bind fun _ _ _ =>
      Runs.challenge.bind fun c' _ e => Runs.pure ?_
    rw [hch] at e
    rw [e.1]
  obtain ⟨p, tr', h, rfl⟩ := h
  have hz : (List.zipWith (fun x d => c * x + d) x d).length = a.length := by simp [ha, hd]
  have h' : Runs (linDotVerify ch params (commitVec params.genN.generators x params.genN.h blindX)
      (commitVec params.gen1.generators [dot x a] params.gen1.h blindY) a
      ⟨List.zipWith (fun x d => c * x + d) x d, commitVec params.genN.generators d params.genN.h rDelta,
        commitVec params.gen1.generators [(List.zipWith (· * ·) a d).prod] params.gen1.h rBeta, c * blindX + rDelta,
        c * blindY + rBeta⟩) tr
      (fun b _ => b = true ↔ c * dot x a + (List.zipWith (· * ·) a d).prod =
        (List.zipWith (· * ·) (List.zipWith (fun x d => c * x + d) x d) a).prod) := by
    unfold linDotVerify
    refine Runs.say.bind fun _ _ _ => Runs.say.bind fun _ _ _ => Runs.say.bind fun _ _ _ => Runs.say.bind fun _ _ _ =>
      Runs.challenge.bind fun c' _ e => (Runs.ensure (by simp [ha, hd])).bind fun _ _ _ => Runs.pure ?_
    rw [hch] at e
    rw [e.1]
    simp only [Bool.and_eq_true, decide_eq_true_eq]
    rw [commitVec_lin _ _ _ _ hd.symm, commitVec_lin _ _ _ _ (by simp), List.take_of_length_le hz.le, hh, hg]
    simp only [true_and, List.zipWith_cons_cons, List.zipWith_nil_left]
    simp only [commitVec, msm, add_left_inj]
    constructor
    · intro h
      have h2 : (c * dot x a + (List.zipWith (· * ·) a d).prod -
        (List.zipWith (· * ·) (List.zipWith (fun x d => c * x + d) x d) a).prod) • g = 0 := by
        rw [sub_smul, sub_eq_zero]
        simpa using h
      exact sub_eq_zero.1 (hg0 _ h2)
    · intro h
      rw [h]
  obtain ⟨b, tr'', h', hb⟩ := h'
  exact ⟨_, _, _, _, _, b, h, h', hb⟩

namespace Ex

/-- The statement `2·1 + 3·4 = 14`, with the random values `5, 6` and the challenge 3: the verifier says no. -/
example : ∃ proof cx cy tr' tr'', linDotProve three params [2, 3] 4 [1, 4] (dot [2, 3] [1, 4]) 6 [5, 6] 8 9 [] =
    .ok ((proof, cx, cy), tr') ∧ linDotVerify three params cx cy [1, 4] proof [] = .ok (false, tr'') := by
  obtain ⟨proof, cx, cy, tr', tr'', b, h, h', hb⟩ := C57_dot_exact three params rfl 2 [] rfl (by decide +kernel) [2, 3] [1, 4] [5, 6] 4 6 8 9 3
    rfl rfl (by decide) (fun _ => rfl) []
  have : b = false := by
    cases b
    · rfl
    · exact absurd (hb.1 rfl) (by decide +kernel)
  exact ⟨proof, cx, cy, tr', tr'', h, this ▸ h'⟩

/-- With all random values zero and one entry zero the products vanish, and so does the dot product. -/
example : ∃ proof cx cy tr' tr'', linDotProve three params [2, 0] 4 [0, 4] (dot [2, 0] [0, 4]) 6 [0, 6] 8 9 [] =
    .ok ((proof, cx, cy), tr') ∧ linDotVerify three params cx cy [0, 4] proof [] = .ok (true, tr'') := by
  obtain ⟨proof, cx, cy, tr', tr'', b, h, h', hb⟩ := C57_dot_exact three params rfl 2 [] rfl (by decide +kernel) [2, 0] [0, 4] [0, 6] 4 6 8 9 3
    rfl rfl (by decide) (fun _ => rfl) []
  exact ⟨proof, cx, cy, tr', tr'', h, hb.2 (by decide +kernel) ▸ h'⟩

end Ex

end Zkp.Cp
