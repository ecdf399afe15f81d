/- C122: what `commit` draws from its randomness source, and what it does without one. -/
import Verif.Model.KzgRng
import Verif.Props.Kzg
import Mathlib.Data.ZMod.Basic

namespace Zkp.Kzg

open Polynomial

set_option linter.unusedSectionVars false

variable {F : Type} [Field F] [DecidableEq F]
variable {G1 : Type} [AddCommGroup G1] [Module F G1]

/-- The polynomial whose `n` coefficients are the values of the source from position `a` on. -/
noncomputable def block (s : Nat → F) (a n : Nat) : F[X] := ∑ i ∈ Finset.range n, C (s (a + i)) * X ^ i

/-- The number of values for one blinding polynomial. -/
def need (p : LabeledPolynomial F) : Nat := (p.hiding_bound.map (· + 1)).getD 0

/-- The number of values for the blinding polynomial of the shifted commitment. -/
def needShifted (p : LabeledPolynomial F) : Nat := if p.degree_bound.isSome then need p else 0

/-- The polynomials with blinding polynomials cut one after the other from the source, starting at position `a`. -/
noncomputable def withBlinders (s : Nat → F) : Nat → List (LabeledPolynomial F) → List (LabeledPolynomial F × F[X] × F[X])
  | _, [] => []
  | a, p :: ps => (p, block s a (need p), block s (a + need p) (needShifted p)) ::
      withBlinders s (a + need p + needShifted p) ps

/-- The number of values for all of them. -/
def total (ps : List (LabeledPolynomial F)) : Nat := (ps.map fun p => need p + needShifted p).sum

theorem commitRng_some (ck : Powers G1) (p : F[X]) (h : Option Nat) (s : Nat → F) (a : Nat) :
    commitRng ck p h (some (some (s, a))) =
      (commit ck p (h.map fun d => (d, block s a (d + 1)))).map fun r => (r, some (s, a + (h.map (· + 1)).getD 0)) := by
  unfold commitRng commit
  split
  · rfl
  · cases checkDegree p.natDegree (ck.powers_of_g.length - 1) with
    | error e => rfl
    | ok u =>
      cases msmSkip ck.powers_of_g p with
      | error e => rfl
      | ok c =>
        cases h with
        | none => rfl
        | some d =>
          show (needRng (some (some (s, a))) >>= fun rng => checkHidingBound d ck.powers_of_g.length >>= fun _ => _) = _
          cases hh : checkHidingBound d ck.powers_of_g.length with
          | error e => simp [needRng, hh, bind, Except.bind, Except.map]
          | ok u => simp [needRng, hh, bind, Except.bind, Except.map, drawPoly, block]

theorem shiftedRng_some (ck : CommitterKey G1) (p : LabeledPolynomial F) (s : Nat → F) (a : Nat) :
    commitShiftedRng ck p (some (s, a)) =
      (commitShifted ck p (block s a (needShifted p))).map fun r => (r, some (s, a + needShifted p)) := by
  unfold commitShiftedRng commitShifted needShifted
  cases hd : p.degree_bound with
  | none => rfl
  | some d =>
    simp only [Option.isSome_some, if_true]
    cases ck.shiftedPowers d with
    | error e => rfl
    | ok powers =>
      show (commitRng powers p.polynomial p.hiding_bound _ >>= _) = _
      rw [commitRng_some]
      unfold need
      cases hh : p.hiding_bound with
      | none => cases h : commit powers p.polynomial none <;> simp [h, bind, Except.bind, Except.map]
      | some b => cases h : commit powers p.polynomial (some (b, block s a (b + 1))) <;> simp [h, bind, Except.bind, Except.map]

theorem pcCommit_cons (ck : CommitterKey G1) (p : LabeledPolynomial F) (b b' : F[X]) (l : List (LabeledPolynomial F × F[X] × F[X])) :
    pcCommit ck ((p, b, b') :: l) =
      commit ck.powers p.polynomial (p.hiding_bound.map fun d => (d, b)) >>= fun c => commitShifted ck p b' >>= fun s =>
        pcCommit ck l >>= fun r =>
          .ok ((⟨p.label, ⟨c.1, s.map (·.1)⟩, p.degree_bound⟩, ⟨c.2, s.map (·.2)⟩) :: r) := by
  unfold pcCommit
  rw [List.mapM_cons]
  unfold commitOne
  cases commit ck.powers p.polynomial (p.hiding_bound.map fun d => (d, b)) with
  | error e => rfl
  | ok c => cases commitShifted ck p b' <;> rfl

/-- C122, the part that holds: with a source, the commitments are those for blinding polynomials that are cut one after
the other from the source, a new one for each hiding polynomial and for each of its shifted commitments; exactly as many
values are drawn. -/
theorem C122_partial (ck : CommitterKey G1) (ps : List (LabeledPolynomial F)) (s : Nat → F) (a : Nat) :
    pcCommitRng ck ps (some (s, a)) = (pcCommit ck (withBlinders s a ps)).map fun r => (r, some (s, a + total ps)) := by
  induction ps generalizing a with
  | nil => rfl
  | cons p ps ih =>
    unfold pcCommitRng
    rw [commitRng_some]
    rw [withBlinders, pcCommit_cons]
    have e1 : commit ck.powers p.polynomial (p.hiding_bound.map fun d => (d, block s a (d + 1))) =
        commit ck.powers p.polynomial (p.hiding_bound.map fun d => (d, block s a (need p))) := by
      unfold need; cases p.hiding_bound <;> rfl
    rw [e1]
    have e2 := shiftedRng_some ck p s (a + need p)
    cases h1 : commit ck.powers p.polynomial (p.hiding_bound.map fun d => (d, block s a (need p))) with
    | error e => simp [bind, Except.bind, Except.map]
    | ok c =>
      cases h2 : commitShifted ck p (block s (a + need p) (needShifted p)) with
      | error e =>
        rw [h2] at e2
        simp only [need] at e2
        simp [e2, bind, Except.bind, Except.map]
      | ok sh =>
        rw [h2] at e2
        have e3 := ih (a + need p + needShifted p)
        have ht : a + need p + needShifted p + total ps = a + total (p :: ps) := by
          simp only [total, List.map_cons, List.sum_cons]; omega
        rw [ht] at e3
        change (commitShiftedRng ck p (some (s, a + need p)) >>= _) = _
        rw [e2]
        change (pcCommitRng ck ps (some (s, a + need p + needShifted p)) >>= _) = _
        rw [e3]
        change _ = Except.map _ (pcCommit ck (withBlinders s (a + need p + needShifted p) ps) >>= _)
        cases h3 : pcCommit ck (withBlinders s (a + need p + needShifted p) ps) with
        | error e => rfl
        | ok r => rfl

/-- Without hiding bounds nothing is drawn, and it does not matter whether there is a source. -/
theorem C122_plain (ck : CommitterKey G1) (ps : List (LabeledPolynomial F)) (h : ∀ p ∈ ps, p.hiding_bound = none)
    (rng : Source F) : pcCommitRng ck ps rng = (pcCommit ck (ps.map fun p => (p, 0, 0))).map fun r => (r, rng) := by
  have hc : ∀ (ck : Powers G1) (q : F[X]), commitRng ck q none (some rng) = (commit ck q none).map fun r => (r, rng) := by
    intro ck q
    unfold commitRng commit
    split
    · rfl
    · cases checkDegree q.natDegree (ck.powers_of_g.length - 1) with
      | error e => rfl
      | ok u => cases msmSkip ck.powers_of_g q <;> rfl
  induction ps with
  | nil => rfl
  | cons p ps ih =>
    have hp : p.hiding_bound = none := h p (by simp)
    have ih := ih fun q hq => h q (by simp [hq])
    unfold pcCommitRng
    rw [List.map_cons, pcCommit_cons, hp, hc]
    simp only [Option.map_none]
    cases h1 : commit ck.powers p.polynomial none with
    | error e => rfl
    | ok c =>
      have hs : commitShiftedRng ck p rng = (commitShifted ck p 0).map fun r => (r, rng) := by
        unfold commitShiftedRng commitShifted
        cases p.degree_bound with
        | none => rfl
        | some d =>
          simp only [hp, Option.map_none]
          cases ck.shiftedPowers d with
          | error e => rfl
          | ok powers =>
            change (commitRng powers p.polynomial none (some rng) >>= _) = _
            rw [hc]
            cases h : commit powers p.polynomial none <;> simp [h, bind, Except.bind, Except.map]
      change (commitShiftedRng ck p rng >>= _) = _
      rw [hs]
      cases h2 : commitShifted ck p 0 with
      | error e => simp [bind, Except.bind, Except.map]
      | ok sh =>
        change (pcCommitRng ck ps rng >>= _) = _
        rw [ih]
        change _ = Except.map _ (pcCommit ck (ps.map fun p => (p, 0, 0)) >>= _)
        cases h3 : pcCommit ck (ps.map fun p => (p, 0, 0)) with
        | error e => rfl
        | ok r => rfl

/-- Without a source `KZG10::commit` refuses a hiding bound. -/
theorem C122_kzg (ck : Powers G1) (p : F[X]) (d : Nat) (r : F[X]) (c : G1 × F[X]) (h : commit ck p (some (d, r)) = .ok c) :
    commitRng ck p (some d) none = .error .missingRng := by
  unfold commit at h
  unfold commitRng
  split at h
  · cases h
  · next hl =>
    rw [if_neg hl]
    cases h1 : checkDegree p.natDegree (ck.powers_of_g.length - 1) with
    | error e => rw [h1] at h; cases h
    | ok u =>
      cases h2 : msmSkip ck.powers_of_g p with
      | error e => rw [h1, h2] at h; cases h
      | ok c => rfl

/-- But the list version wraps the missing source: a hiding polynomial that could be committed to makes it abort. -/
theorem C122_aborts (ck : CommitterKey G1) (p : LabeledPolynomial F) (ps : List (LabeledPolynomial F)) (d : Nat) (r : F[X])
    (c : G1 × F[X]) (hd : p.hiding_bound = some d) (h : commit ck.powers p.polynomial (some (d, r)) = .ok c) :
    pcCommitRng ck (p :: ps) none = .error .panic := by
  have key : commitRng ck.powers p.polynomial (some d) (some none) = .error .panic := by
    unfold commit at h
    unfold commitRng
    split at h
    · cases h
    · next hl =>
      rw [if_neg hl]
      cases h1 : checkDegree p.polynomial.natDegree (ck.powers.powers_of_g.length - 1) with
      | error e => rw [h1] at h; cases h
      | ok u =>
        cases h2 : msmSkip ck.powers.powers_of_g p.polynomial with
        | error e => rw [h1, h2] at h; cases h
        | ok c =>
          cases h3 : checkHidingBound d ck.powers.powers_of_g.length with
          | error e => rw [h1, h2] at h; change (checkHidingBound _ _ >>= _) = _ at h; rw [h3] at h; cases h
          | ok u =>
            change (checkHidingBound d ck.powers.powers_of_g.length >>= _) = _
            rw [h3]; rfl
  unfold pcCommitRng
  rw [hd, key]; rfl

theorem bind_never {α β : Type} {x : Except PcError α} {f : α → Except PcError β} (hx : x ≠ .error .missingRng)
    (hf : ∀ a, f a ≠ .error .missingRng) : (x >>= f) ≠ .error .missingRng := by
  cases x with
  | error e => exact fun h => hx (by cases h; rfl)
  | ok a => exact hf a

theorem commitRng_never (ck : Powers G1) (p : F[X]) (h : Option Nat) (rng : Source F) :
    commitRng ck p h (some rng) ≠ .error .missingRng := by
  unfold commitRng
  split
  · nofun
  · refine bind_never (by unfold checkDegree; split_ifs <;> nofun) fun _ => bind_never
      (by unfold msmSkip; simp only; split_ifs <;> nofun) fun _ => ?_
    cases h with
    | none => nofun
    | some d =>
      refine bind_never (by nofun) fun _ => bind_never (by unfold checkHidingBound; split_ifs <;> nofun) fun _ =>
        bind_never ?_ fun _ => by nofun
      unfold drawPoly
      split <;> nofun

/-- The list version never returns `MissingRng`. -/
theorem C122_never (ck : CommitterKey G1) (ps : List (LabeledPolynomial F)) (rng : Source F) :
    pcCommitRng ck ps rng ≠ .error .missingRng := by
  induction ps generalizing rng with
  | nil => nofun
  | cons p ps ih =>
    refine bind_never (commitRng_never _ _ _ _) fun c => bind_never ?_ fun s => bind_never (ih _) fun _ => by nofun
    unfold commitShiftedRng
    split
    · nofun
    · refine bind_never ?_ fun _ => bind_never (commitRng_never _ _ _ _) fun _ => by nofun
      unfold CommitterKey.shiftedPowers
      split_ifs <;> nofun

/-- The full statement: without a source, a list whose first polynomial asks for hiding and could be committed to with a
source is refused with `MissingRng`. -/
def C122_statement (F G1 : Type) [Field F] [DecidableEq F] [AddCommGroup G1] [Module F G1] : Prop :=
  ∀ (ck : CommitterKey G1) (p : LabeledPolynomial F) (ps : List (LabeledPolynomial F)) (d : Nat) (r : F[X]) (c : G1 × F[X]),
    p.hiding_bound = some d → commit ck.powers p.polynomial (some (d, r)) = .ok c →
    pcCommitRng ck (p :: ps) none = .error .missingRng

/-- The key and the polynomial of the examples. -/
theorem ex_commit : ∃ c, commit (⟨pows (2 : F17) (1 : F17) 4, pows (2 : F17) 3 4⟩ : Powers F17) (X ^ 2 : F17[X])
    (some (1, X + C 4)) = .ok c := by
  have ht := setup_trim_spec (N := 4) (s := 3) (by norm_num) (2 : F17) (1 : F17) (3 : F17) (1 : F17)
  obtain ⟨c, r, pf, h1, h2⟩ := C38_success ht (X ^ 2) 5 (some (1, X + C 4)) (by simp) (by simp)
    (by rintro d r h; injection h with h; injection h; subst d; omega)
  exact ⟨(c, r), h1⟩

example : commitRng (⟨pows (2 : F17) (1 : F17) 4, pows (2 : F17) 3 4⟩ : Powers F17) (X ^ 2 : F17[X]) (some 1) none =
    .error .missingRng := by
  obtain ⟨c, h⟩ := ex_commit
  exact C122_kzg _ _ _ _ _ h

theorem C122_violated : ¬C122_statement F17 F17 := by
  intro hall
  obtain ⟨c, h⟩ := ex_commit
  have h1 := hall ⟨pows (2 : F17) (1 : F17) 4, pows (2 : F17) 3 4, 3⟩ ⟨"y", X ^ 2, none, some 1⟩ [] 1 _ c rfl h
  rw [C122_aborts ⟨pows (2 : F17) (1 : F17) 4, pows (2 : F17) 3 4, 3⟩ ⟨"y", X ^ 2, none, some 1⟩ [] 1 _ c rfl h] at h1
  cases h1

/-- Two polynomials, the first with a degree bound: three blinding polynomials of two coefficients, at positions 0, 2 and 4. -/
example (s : Nat → F17) : withBlinders s 0 [⟨"a", X ^ 2, some 2, some 1⟩, ⟨"b", X, none, some 1⟩] =
    [(⟨"a", X ^ 2, some 2, some 1⟩, block s 0 2, block s 2 2), (⟨"b", X, none, some 1⟩, block s 4 2, block s 6 0)] := rfl

/-- A list without hiding, committed to without a source. -/
example : ∃ r, pcCommitRng (F := F17) (G1 := F17) (⟨pows (2 : F17) (1 : F17) 4, pows (2 : F17) 3 4, 3⟩) [⟨"y", X ^ 2, none, none⟩] none = .ok (r, none) := by
  have ht := setup_trim_spec (N := 4) (s := 3) (by norm_num) (2 : F17) (1 : F17) (3 : F17) (1 : F17)
  obtain ⟨crs, h1⟩ := C38_list_success ht [(⟨"y", X ^ 2, none, none⟩, 0, 0)] (by simp)
  refine ⟨crs, ?_⟩
  rw [C122_plain _ _ (by simp)]
  change (pcCommit _ [(⟨"y", X ^ 2, none, none⟩, 0, 0)]).map _ = _
  rw [h1]; rfl

end Zkp.Kzg
