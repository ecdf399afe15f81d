/- C82: Rescue's two exponents and its half-rounds.  Also C20 at the level of one step of the power circuit. -/
import Verif.Props.Hashes
import Verif.Proof.BnPrime
import Mathlib.FieldTheory.Finite.Basic
import Mathlib.LinearAlgebra.Matrix.NonsingularInverse

set_option linter.unusedSectionVars false
set_option linter.unusedSimpArgs false

namespace Zkp

open Rescue

/-! ### C82 -/

/-- C82 as stated, for one field: raising to `ALPH` and then to `INVALPH` changes nothing. -/
def C82_statement (F : Type) [Field F] : Prop := ∀ x : F, (x ^ limbsVal ALPH) ^ limbsVal INVALPH = x

theorem alph_val : limbsVal ALPH = 5 := by decide +kernel

theorem invalph_mod : 5 * limbsVal INVALPH % (bnR - 1) = 1 := by decide +kernel

/-- A power with an exponent that is one modulo `p - 1` is the identity of `ZMod p`. -/
theorem pow_one_mod (p n : Nat) [Fact p.Prime] (h : n % (p - 1) = 1) (x : ZMod p) : x ^ n = x := by
  have e : n = (p - 1) * (n / (p - 1)) + 1 := by conv_lhs => rw [← Nat.div_add_mod n (p - 1), h]
  by_cases hx : x = 0
  · rw [hx, e]; simp
  · rw [e, pow_succ, pow_mul, ZMod.pow_card_sub_one_eq_one hx, one_pow, one_mul]

/-- C82 holds in the field the comment of rescue.rs:21-22 names, the scalar field of BN254, for every element and in
both orders. -/
theorem C82_partial : C82_statement (ZMod bnR) ∧
    ∀ x : ZMod bnR, (x ^ limbsVal INVALPH) ^ limbsVal ALPH = x := by
  refine ⟨fun x => ?_, fun x => ?_⟩
  · rw [alph_val, ← pow_mul]; exact pow_one_mod _ _ invalph_mod x
  · rw [alph_val, ← pow_mul, mul_comm]; exact pow_one_mod _ _ invalph_mod x

/-- It fails in the scalar field of BLS12-381, the only field the repository's Rescue examples use: nothing in
`RescueConstant` depends on the field, so the BN254 exponent is used there too. -/
theorem C82_violated : ¬ C82_statement (ZMod blsR) := by
  intro h
  have := h ((5 : Nat) : ZMod blsR)
  rw [alph_val, ← pow_mul, pow_cast _ _ _ (by decide +kernel)] at this
  rw [ZMod.natCast_eq_natCast_iff'] at this
  revert this
  decide +kernel

/-- The inner product of a matrix row and a state, as in the textbook description. -/
def mixed (mds : List (List F)) [Field F] (s : List F) (c : List F) : List F :=
  (List.range 3).map fun j => (∑ k ∈ Finset.range 3, (mds.getD j []).getD k 0 * s.getD k 0) + c.getD j 0

theorem halfRound_mixed {F : Type} [Field F] (rc mds : List (List F)) (s : List F) (i : Nat) :
    halfRound rc mds s i = mixed mds (s.map fun x => x ^ limbsVal (exponent i)) (rc.getD (i + 1) []) := by
  unfold halfRound mixed
  refine List.map_congr_left fun j _ => ?_
  simp [List.range_succ, Finset.sum_range_succ]

theorem root_map {R : Type} [Monoid R] (n : Nat) (h1 : ∀ x : R, (x ^ 5) ^ n = x) (h2 : ∀ x : R, (x ^ n) ^ 5 = x)
    (s : List R) : (s.map fun x => x ^ n).map (· ^ 5) = s ∧
      ∀ z : List R, z.map (· ^ 5) = s → z = s.map fun x => x ^ n := by
  constructor
  · have : ((fun x : R => x ^ 5) ∘ fun x => x ^ n) = id := funext h2
    rw [List.map_map, this, List.map_id]
  · rintro z rfl
    have : ((fun x : R => x ^ n) ∘ fun x => x ^ 5) = id := funext h1
    rw [List.map_map, this, List.map_id]

theorem exponent_even (i : Nat) : exponent (2 * i) = ALPH := by unfold exponent; rw [if_neg (by omega)]

theorem exponent_odd (i : Nat) : exponent (2 * i + 1) = INVALPH := by unfold exponent; rw [if_pos (by omega)]

/-- C82, the order of the exponents: half-rounds with an even number raise to the fifth power, those with an odd number
take the fifth root (the unique one), then the matrix and the constants of the next row are applied. -/
theorem C82_rounds (rc mds : List (List (ZMod bnR))) (s : List (ZMod bnR)) (i : Nat) :
    halfRound rc mds s (2 * i) = mixed mds (s.map (· ^ 5)) (rc.getD (2 * i + 1) []) ∧
    ∃ y : List (ZMod bnR), y.map (· ^ 5) = s ∧ (∀ z : List (ZMod bnR), z.map (· ^ 5) = s → z = y) ∧
      halfRound rc mds s (2 * i + 1) = mixed mds y (rc.getD (2 * i + 2) []) := by
  have h := C82_partial
  unfold C82_statement at h
  have e1 := halfRound_mixed rc mds s (2 * i)
  have e2 := halfRound_mixed rc mds s (2 * i + 1)
  rw [exponent_even] at e1
  rw [exponent_odd] at e2
  rw [alph_val] at e1 h
  revert h e2
  generalize limbsVal INVALPH = n
  intro h e2
  obtain ⟨r1, r2⟩ := root_map n h.1 h.2 s
  exact ⟨e1, _, r1, r2, e2⟩

/-- The matrix read from the table. -/
def mdsMatrix {F : Type} [Field F] (mds : List (List F)) : Matrix (Fin 3) (Fin 3) F :=
  fun j k => (mds.getD j []).getD k 0

theorem mixed_inj {F : Type} [Field F] {mds : List (List F)} (hm : (mdsMatrix mds).det ≠ 0) {s t c : List F}
    (hs : s.length = 3) (ht : t.length = 3) (h : mixed mds s c = mixed mds t c) : s = t := by
  have hv : (mdsMatrix mds).mulVec (fun k => s.getD k 0) = (mdsMatrix mds).mulVec (fun k => t.getD k 0) := by
    funext j
    have h' : ∀ j ∈ List.range 3, _ := List.map_inj_left.1 h
    have := h' j (List.mem_range.2 j.2)
    simpa [Matrix.mulVec, dotProduct, Fin.sum_univ_three, Finset.sum_range_succ, mdsMatrix] using this
  have hu : IsUnit (mdsMatrix mds) := (Matrix.isUnit_iff_isUnit_det _).2 (isUnit_iff_ne_zero.2 hm)
  have := Matrix.mulVec_injective_iff_isUnit.2 hu hv
  refine List.ext_getElem (by omega) fun k h1 h2 => ?_
  have := congrFun this ⟨k, by omega⟩
  simpa [h1, h2] using this

/-- C82, consequence: over BN254, with any invertible matrix and any constants, the 44 half-rounds are injective on the
three-element states. -/
theorem C82_injective (rc mds : List (List (ZMod bnR))) (hm : (mdsMatrix mds).det ≠ 0) (n : Nat)
    (s t : List (ZMod bnR)) (hs : s.length = 3) (ht : t.length = 3)
    (h : (List.range n).foldl (halfRound rc mds) s = (List.range n).foldl (halfRound rc mds) t) : s = t := by
  have hlen : ∀ n (s : List (ZMod bnR)), s.length = 3 → ((List.range n).foldl (halfRound rc mds) s).length = 3 := by
    intro n s hs
    cases n with
    | zero => exact hs
    | succ n => rw [List.range_succ, List.foldl_append]; simp [halfRound]
  induction n with
  | zero => exact h
  | succ n ih =>
    rw [List.range_succ, List.foldl_append, List.foldl_append] at h
    simp only [List.foldl_cons, List.foldl_nil, halfRound_mixed] at h
    apply ih
    have hinj : Function.Injective fun x : ZMod bnR => x ^ limbsVal (exponent n) := by
      have h1 := C82_partial
      unfold exponent
      split
      · exact Function.LeftInverse.injective (g := fun x => x ^ limbsVal ALPH) h1.2
      · exact Function.LeftInverse.injective (g := fun x => x ^ limbsVal INVALPH) h1.1
    exact List.map_injective_iff.2 hinj
      (mixed_inj hm (by rw [List.length_map]; exact hlen n s hs) (by rw [List.length_map]; exact hlen n t ht) h)

/-- C82, concrete case: the identity matrix is invertible, and the two states differ. -/
example : (mdsMatrix (idMds : List (List (ZMod bnR)))).det ≠ 0 ∧
    (List.range 44).foldl (halfRound (zeroRows 45) idMds) [1, 2, 0] ≠
      (List.range 44).foldl (halfRound (zeroRows 45) idMds) [2, 1, (0 : ZMod bnR)] := by
  have hd : (mdsMatrix (idMds : List (List (ZMod bnR)))).det ≠ 0 := by
    have : mdsMatrix (idMds : List (List (ZMod bnR))) = 1 := by
      funext i j; fin_cases i <;> fin_cases j <;> simp [mdsMatrix, idMds]
    rw [this]; simp
  refine ⟨hd, fun h => ?_⟩
  have := C82_injective _ _ hd 44 [1, 2, 0] [2, 1, 0] rfl rfl h
  have h2 : (1 : ZMod bnR) = 2 := (List.cons.inj this).1
  have h3 : ((1 : Nat) : ZMod bnR) = ((2 : Nat) : ZMod bnR) := by exact_mod_cast h2
  rw [ZMod.natCast_eq_natCast_iff'] at h3
  revert h3; decide +kernel

/-! ### C20, one step -/

variable {F : Type} [Field F]

/-- C20, the cached value of one loop step on a set bit: the new variable is given `r² * x`, but the value kept for the
next steps is `r²` (rescue.rs:535, poseidon.rs:766). -/
theorem C20_step_value (x r : F) (v res : Index) (found : Bool) (cs : CS F) (hp : cs.proving = true) :
    ∃ cs', Pow.step x v ⟨found, r, res⟩ true cs = .ok (⟨true, r * r, .aux (cs.aux.length + 1)⟩, cs') ∧
      cs'.aux = cs.aux ++ [r * r, r * r * x] := by
  obtain ⟨pr, inp, aux, con⟩ := cs
  obtain rfl : pr = true := hp
  simp [Pow.step, alloc, enforce, bind, StateT.bind, Except.bind, pure, StateT.pure, Except.pure]

/-- Hence even with an accumulator that starts at one, the cached value and the variable part company at the first set
bit, unless the base is one; the next honest step then contradicts its own constraint. -/
theorem C20_step_violated (x : F) (hx : x ≠ 1) (v res : Index) (cs : CS F) (hp : cs.proving = true) :
    ∃ s cs', Pow.step x v ⟨false, 1, res⟩ true cs = .ok (s, cs') ∧ s.res = .aux (cs.aux.length + 1) ∧
      cs'.aux[cs.aux.length + 1]? = some x ∧ s.resValue = 1 ∧ s.resValue ≠ x := by
  obtain ⟨cs', h1, h2⟩ := C20_step_value x 1 v res false cs hp
  refine ⟨_, cs', h1, rfl, ?_, by simp, by simpa using hx.symm⟩
  rw [h2]; simp

theorem three_ne_one : (3 : ZMod 7) ≠ 1 := by decide

example : ∃ s cs', Pow.step (3 : ZMod 7) .one ⟨false, 1, .one⟩ true (CS.new true) = .ok (s, cs') ∧
    s.res = .aux 1 ∧ cs'.aux[1]? = some 3 ∧ s.resValue = 1 ∧ s.resValue ≠ 3 := by
  exact C20_step_violated (3 : ZMod 7) three_ne_one .one .one (CS.new true) rfl

/-! ### C19, allocation through the interface -/

/-- C19: `alloc_input` makes the value public and `alloc` keeps it private; both return the value they were given and
add no constraint. -/
theorem C19_alloc (f : F) (cs : CS F) (hp : cs.proving = true) :
    (∃ cs', FieldOut.allocInput (some f) cs = .ok (⟨some f, .input cs.inputs.length⟩, cs') ∧
      cs'.inputs = cs.inputs ++ [f] ∧ cs'.aux = cs.aux ∧ cs'.constraints = cs.constraints) ∧
    ∃ cs', FieldOut.alloc (some f) cs = .ok (⟨some f, .aux cs.aux.length⟩, cs') ∧
      cs'.inputs = cs.inputs ∧ cs'.aux = cs.aux ++ [f] ∧ cs'.constraints = cs.constraints := by
  obtain ⟨pr, inp, aux, con⟩ := cs
  obtain rfl : pr = true := hp
  constructor <;> simp [FieldOut.alloc, FieldOut.allocInput, Zkp.alloc, Zkp.allocInput, okOr, bind, StateT.bind,
    Except.bind, pure, StateT.pure, Except.pure]

/-- And a missing value is the error `AssignmentMissing` for a prover. -/
theorem C19_alloc_missing (cs : CS F) (hp : cs.proving = true) :
    FieldOut.allocInput (none : Option F) cs = .error .assignmentMissing ∧
    FieldOut.alloc (none : Option F) cs = .error .assignmentMissing := by
  constructor <;> simp [FieldOut.allocInput, FieldOut.alloc, Zkp.allocInput, Zkp.alloc, okOr, hp, bind, StateT.bind,
    Except.bind]

example : ∃ cs', FieldOut.allocInput (some (3 : ℚ)) (CS.new true) = .ok (⟨some 3, .input 1⟩, cs') ∧
    cs'.inputs = [1, 3] := by
  obtain ⟨⟨cs', h1, h2, _⟩, _⟩ := C19_alloc (3 : ℚ) (CS.new true) rfl
  exact ⟨cs', h1, h2⟩

end Zkp
