/- One layer of Hyrax's prover, with challenges fixed beforehand: what is computed from the values does not depend on
the random scalars. -/
import Verif.Proof.HyraxZk
import Verif.Proof.HidingInput
import Verif.Proof.SpartanHidingSat

set_option linter.unusedSectionVars false
set_option linter.unusedSimpArgs false

namespace Zkp.Hx

open Zkp.Ml Zkp.Spartan Zkp.Gkr Zkp.Cp Zkp.Sc Polynomial

variable {F : Type} [Field F] {G : Type} [AddCommGroup G] [Module F G] [DecidableEq F] [DecidableEq G]

theorem yields_pure {α : Type} {a b : α} {n : Nat} (h : a = b) : Yields (pure a : Vf F G α) n b n := by
  subst h; exact Yields.pure

/-- The challenges of a sum-check: one in four messages. -/
def zkChals (ch : Oracle F G) : Nat → Nat → List F
  | _, 0 => []
  | n, k + 1 => chalAt ch (n + 2) :: zkChals ch (n + 4) k

theorem zkChals_length (ch : Oracle F G) (n k : Nat) : (zkChals ch n k).length = k := by
  induction k generalizing n with
  | zero => rfl
  | succ k ih => simp [zkChals, ih]

/-- One sum-check: the polynomials, the values and the tables come first, the blinding factors after. -/
theorem zkLoop_yields {d : Nat} {round : List (List F) → F → Option (List F)} {f : (Nat → F) → F} (hF : Fits d round f)
    {ch : Oracle F G} (ho : Oblivious ch) (gen1 genK : MultiParams G) (k : Nat) :
    ∀ (j n : Nat) (claim : F) (ts : List (List F)), TablesOk k ts → ∃ (polys : List (List F)) (vals : List F)
      (tables : List (List F)), polys.length = k ∧ (∀ p ∈ polys, p.length = d + 1) ∧ vals.length = k ∧
      foldAll foldTables ts (zkChals ch n k) = some tables ∧
      RoundsOk polys (zkChals ch n k) claim (vals.getLastD claim) ∧
      (claim = total f ts → vals.getLastD claim = total f tables) ∧
      ∀ (blind : Nat → F) (blindEval : Nat → Option F) (be : Nat → F) (comm : G),
        (∀ i < k, blindEval (j + i) = some (be i)) →
        ∃ last, Yields (zkLoop ch gen1 genK round blind blindEval k j claim comm ts) n
          ⟨polys, (List.range k).map fun i => commitVec genK.generators (polys.getD i []) genK.h (blind (j + i)),
            (List.range k).map fun i => commitVec gen1.generators [vals.getD i 0] gen1.h (be i), zkChals ch n k,
            tables, vals.getLastD claim, last⟩ (n + 4 * k) := by
  induction k with
  | zero =>
    intro j n claim ts hs
    exact ⟨[], [], ts, rfl, by simp, rfl, rfl, rfl, id, fun _ _ _ comm _ => ⟨comm, Yields.pure⟩⟩
  | succ k ih =>
    intro j n claim ts hs
    obtain ⟨p, hp, hq⟩ := hF k ts hs
    obtain ⟨q, hq1, hq2, hq3, hq4⟩ := hq claim
    obtain ⟨r, hr⟩ : ∃ r, r = chalAt ch (n + 2) := ⟨_, rfl⟩
    obtain ⟨s', hs1, hs2, hs3⟩ := hp r
    obtain ⟨polys, vals, tables, a1, a2, a3, a4, a5, a6, a7⟩ := ih (j + 1) (n + 4) (polyEval (trim q) r) s' hs2
    have hl : (polyEval (trim q) r :: vals).getLastD claim = vals.getLastD (polyEval (trim q) r) := List.getLastD_cons ..
    refine ⟨q :: polys, polyEval (trim q) r :: vals, tables, by simpa using a1, ?_, by simpa using a3, ?_, ?_, ?_, ?_⟩
    · intro x hx
      rcases List.mem_cons.1 hx with rfl | hx
      · exact hq2
      · exact a2 x hx
    · simp only [zkChals, foldAll, ← hr, hs1, Option.bind_some]; exact a4
    · rw [hl]
      simp only [zkChals, ← hr]
      refine ⟨hq3, ?_⟩
      rw [polyEval_trim] at a5 ⊢; exact a5
    · intro hc
      rw [hl]
      exact a6 (by rw [polyEval_trim, hq4 hc, hs3])
    · intro blind blindEval be comm hb
      obtain ⟨last, Y⟩ := a7 blind blindEval (fun i => be (i + 1))
        (commitVec gen1.generators [polyEval (trim q) r] gen1.h (be 0)) (fun i hi => by
          have := hb (i + 1) (by omega); rwa [← Nat.add_assoc, Nat.add_right_comm] at this)
      refine ⟨last, ?_⟩
      have hb0 := hb 0 (by omega)
      rw [Nat.add_zero] at hb0
      unfold zkLoop
      refine (Yields.orPanic hq1).bind (Yields.say.bind ((Yields.challenge ho).bind ?_))
      rw [show n + 1 + 1 = n + 2 by omega, ← hr]
      refine (Yields.orPanic hs1).bind ((Yields.orPanic hb0).bind (Yields.say.bind (Yields.say.bind ?_)))
      refine Yields.bind (n' := n + 4 * (k + 1)) (by
        rw [show n + 4 * (k + 1) = n + 4 + 4 * k by omega]; exact Y) ?_
      refine yields_pure ?_
      rw [hl]
      simp only [zkChals, ← hr, List.range_succ_eq_map, List.map_cons, List.map_map, Function.comp_def, List.getD_cons_zero,
        List.getD_cons_succ, Nat.add_zero, commitVec_trim]
      congr 1
      congr 1
      refine List.map_congr_left fun i _ => ?_
      congr 2; omega

/-! ### The messages of a layer -/

/-- The commitments to the polynomials of the rounds. -/
def polyComms (params : Params G) (alpha : Nat → F) (logN logG : Nat) (pie : List F) : List G :=
  (List.range (logN + 2 * logG)).map fun j => if j < logN then
    commitVec params.gen4.generators (coef (fun k => pie.getD k 0) logN j) params.gen4.h (alpha j) else
    commitVec params.gen3.generators (coef (fun k => pie.getD k 0) logN j) params.gen3.h (alpha j)

/-- The position of the blinding factor of the value of round `j`; `lg` is the size of the layer above. -/
def evalPos (logN logG lg j : Nat) : Nat := if j < logN + logG then j else j - logG + lg

/-- The commitments to the values of the rounds. -/
def evalComms (params : Params G) (alphaEval : Nat → F) (logN logG lg : Nat) (vals : List F) : List G :=
  (List.range (logN + 2 * logG)).map fun j =>
    commitVec params.gen1.generators [vals.getD j 0] params.gen1.h (alphaEval (evalPos logN logG lg j))

/-- The last part of the proof of a layer. -/
def zkOut (params : Params G) (prod : ProdProof F G) (logN logG lg : Nat) (j : Nat → F) (rou0 c : F) (pie vals : List F) (x y : F)
    (a0 : G) (rc0 : F) (rand : ZkRand F) : ZkProof F G :=
  ⟨prod, a0, commitVec params.gen1.generators [((List.range (4 * logN + 6 * logG)).map fun k => j k * rand.d k).sum]
      params.gen1.h rand.c,
    commitVec params.gen1.generators [x] params.gen1.h rand.x, commitVec params.gen1.generators [y] params.gen1.h rand.y,
    commitVec params.gen1.generators [x * y] params.gen1.h rand.z, polyComms params rand.alpha logN logG pie,
    evalComms params rand.alphaEval logN logG lg vals, deltaCommits params rand logG logN,
    (List.range (4 * logN + 6 * logG)).map fun k => c * pie.getD k 0 + rand.d k,
    (List.range (logN + 2 * logG)).map fun k => c * rand.alpha k + rand.rDelta k,
    c * (rou0 * rc0 - j (4 * logN + 6 * logG) * rand.x - j (4 * logN + 6 * logG + 1) * rand.y -
      j (4 * logN + 6 * logG + 2) * rand.z) + rand.c⟩

theorem sayDeltas_yields (ds : List G) : ∀ n, Yields (sayDeltas ds : Vf F G Unit) n () (n + ds.length) := by
  induction ds with
  | nil => intro n; exact Yields.pure
  | cons d ds ih =>
    intro n
    unfold sayDeltas
    refine Yields.say.bind ?_
    rw [List.length_cons, show n + (ds.length + 1) = n + 1 + ds.length by omega]
    exact ih (n + 1)

/-- The challenges of the matrix. -/
def zkRou (ch : Oracle F G) (n logN logG : Nat) : List F := chals ch (n + 5 * (logN + 2 * logG) + 7) (logN + 2 * logG + 1)

/-- The last challenge of a layer. -/
def zkC (ch : Oracle F G) (n logN logG : Nat) : F := chalAt ch (n + 6 * (logN + 2 * logG) + 10)

theorem sumcheckProve_yields {ch : Oracle F G} (ho : Oblivious ch) (params : Params G) (x y : F) (logG logN lg : Nat) (m : Mat F)
    (pie vals : List F) (hlen : 4 * logN + 6 * logG ≤ pie.length) (rc0 : F) (rand : ZkRand F) (a0 : G) (n n1 : Nat)
    (hn1 : n1 = n + 4 * (logN + 2 * logG)) (prod : ProdProof F G)
    (P : Yields (productProve ch params.gen1 x rand.x y rand.y (x * y) rand.z rand.b1 rand.b2 rand.b3 rand.b4 rand.b5) n1
      (prod, commitVec params.gen1.generators [x] params.gen1.h rand.x, commitVec params.gen1.generators [y] params.gen1.h rand.y,
        commitVec params.gen1.generators [x * y] params.gen1.h rand.z) (n1 + 7)) :
    Yields (sumcheckProve ch params x y logG logN m pie rc0 rand a0 (polyComms params rand.alpha logN logG pie)
        (evalComms params rand.alphaEval logN logG lg vals)) n1
      (zkOut params prod logN logG lg (jVec (zkRou ch n logN logG) m (logN + 2 * logG + 1)) ((zkRou ch n logN logG).getD 0 0)
        (zkC ch n logN logG) pie vals x y a0 rc0 rand) (n + 6 * (logN + 2 * logG) + 10) := by
  unfold sumcheckProve
  refine P.bind ?_
  have D := sayDeltas_yields (F := F) (deltaCommits params rand logG logN) (n1 + 7)
  rw [show (deltaCommits params rand logG logN).length = logN + 2 * logG by simp [deltaCommits],
    show n1 + 7 + (logN + 2 * logG) = n + 5 * (logN + 2 * logG) + 7 by omega] at D
  refine D.bind ((challenges_yields ho _ _ _).bind (Yields.say.bind ((Yields.challenge ho).bind ?_)))
  rw [show n + 5 * (logN + 2 * logG) + 7 + (logN + 2 * logG + 1) + 1 + 1 = n + 6 * (logN + 2 * logG) + 10 by omega]
  exact (Yields.ensure (by simpa using hlen)).bind Yields.pure

end Zkp.Hx
