/- C70 and C71 with the tables of the code, over the fields they are used with. -/
import Verif.Props.HashTables

set_option linter.unusedSectionVars false
set_option linter.unusedSimpArgs false

namespace Zkp

open Rescue

/-! ### Evaluation with numbers -/

/-- Entry of a table. -/
def entry (t : List (List Nat)) (i k : Nat) : Nat := (t.getD i []).getD k 0

/-- A Poseidon round on representatives. -/
def natRound (p : Nat) (ark mds : List (List Nat)) (full : Bool) (r : Nat) (s : Nat × Nat × Nat) : Nat × Nat × Nat :=
  let a := s.1 + entry ark r 0
  let b := s.2.1 + entry ark r 1
  let c := s.2.2 + entry ark r 2
  let a := if full then a ^ 5 % p else a
  let b := if full then b ^ 5 % p else b
  let c := c ^ 5 % p
  ((entry mds 0 0 * a + entry mds 0 1 * b + entry mds 0 2 * c) % p,
    (entry mds 1 0 * a + entry mds 1 1 * b + entry mds 1 2 * c) % p,
    (entry mds 2 0 * a + entry mds 2 1 * b + entry mds 2 2 * c) % p)

/-- A half-round of Rescue on representatives. -/
def natHalf (p : Nat) (rc mds : List (List Nat)) (s : Nat × Nat × Nat) (i : Nat) : Nat × Nat × Nat :=
  let e := limbsVal (exponent i)
  let a := powModF 256 s.1 e p
  let b := powModF 256 s.2.1 e p
  let c := powModF 256 s.2.2 e p
  ((entry mds 0 0 * a + entry mds 0 1 * b + entry mds 0 2 * c + entry rc (i + 1) 0) % p,
    (entry mds 1 0 * a + entry mds 1 1 * b + entry mds 1 2 * c + entry rc (i + 1) 1) % p,
    (entry mds 2 0 * a + entry mds 2 1 * b + entry mds 2 2 * c + entry rc (i + 1) 2) % p)

variable {p : Nat} [Fact p.Prime]

/-- The state a triple of numbers stands for. -/
def toS3 (s : Nat × Nat × Nat) : S3 (ZMod p) := ⟨(s.1 : ZMod p), (s.2.1 : ZMod p), (s.2.2 : ZMod p)⟩

theorem natRound_cast (ark mds : List (List Nat)) (full : Bool) (r : Nat) (s : Nat × Nat × Nat) :
    (toS3 (natRound p ark mds full r s) : S3 (ZMod p)) =
      poseidonRound (row3 (readTable ark)) (mds3 (readTable mds)) full r (toS3 s) := by
  unfold toS3 natRound poseidonRound row3 mds3 entry
  simp only [readTable_getD, row3]
  cases full <;> simp [ZMod.natCast_mod]

theorem natFold_cast (ark mds : List (List Nat)) (full : Nat → Bool) (l : List Nat) (s : Nat × Nat × Nat) :
    l.foldl (fun s r => poseidonRound (row3 (readTable ark)) (mds3 (readTable mds)) (full r) r s) (toS3 s : S3 (ZMod p)) =
      toS3 (l.foldl (fun s r => natRound p ark mds (full r) r s) s) := by
  induction l generalizing s with
  | nil => rfl
  | cons r l ih => rw [List.foldl_cons, List.foldl_cons, ← natRound_cast, ih]

/-- The list a triple of numbers stands for. -/
def toList (s : Nat × Nat × Nat) : List (ZMod p) := [(s.1 : ZMod p), (s.2.1 : ZMod p), (s.2.2 : ZMod p)]

theorem exponent_lt (i : Nat) : limbsVal (exponent i) < 2 ^ 256 := by
  unfold exponent; split <;> decide +kernel

theorem natHalf_cast (rc mds : List (List Nat)) (s : Nat × Nat × Nat) (i : Nat) :
    (toList (natHalf p rc mds s i) : List (ZMod p)) = halfRound (readTable rc) (readTable mds) (toList s) i := by
  have hp : ∀ n : Nat, (n : ZMod p) ^ limbsVal (exponent i) = (powModF 256 n (limbsVal (exponent i)) p : Nat) :=
    fun n => pow_cast p n _ (exponent_lt i)
  unfold toList natHalf halfRound entry
  simp only [readTable_getD, List.map_cons, List.map_nil, hp]
  simp [List.range_succ, ZMod.natCast_mod]

theorem natHalfFold_cast (rc mds : List (List Nat)) (l : List Nat) (s : Nat × Nat × Nat) :
    l.foldl (halfRound (readTable rc) (readTable mds)) (toList s : List (ZMod p)) =
      toList (l.foldl (natHalf p rc mds) s) := by
  induction l generalizing s with
  | nil => rfl
  | cons r l ih => rw [List.foldl_cons, List.foldl_cons, ← natHalf_cast, ih]

/-- The native Poseidon block with the tables of the code. -/
theorem poseidon_block_nat (xl xr : Nat) :
    Poseidon.block (readTable Poseidon.CONSTANTS) (readTable Poseidon.MATRIX) (xl : ZMod p) (xr : ZMod p) =
      (((List.range 91).foldl (fun s r => natRound p Poseidon.CONSTANTS Poseidon.MATRIX (decide (r ≠ 4)) r s) (xl, xr, 0)).1 :
        ZMod p) := by
  rw [C71_schedule_partial]
  have := natFold_cast (p := p) Poseidon.CONSTANTS Poseidon.MATRIX (fun r => decide (r ≠ 4)) (List.range 91) (xl, xr, 0)
  have e : (toS3 (xl, xr, 0) : S3 (ZMod p)) = ⟨xl, xr, 0⟩ := by simp [toS3]
  rw [e] at this
  rw [this]
  rfl

/-- The permutation of the specification with the tables of the code. -/
theorem poseidon_spec_nat (xl xr : Nat) :
    (poseidonSpec 8 83 (row3 (readTable Poseidon.CONSTANTS)) (mds3 (readTable Poseidon.MATRIX))
      (⟨xl, xr, 0⟩ : S3 (ZMod p))).a =
      (((List.range 91).foldl (fun s r => natRound p Poseidon.CONSTANTS Poseidon.MATRIX
        (decide (r < 4) || decide (87 ≤ r)) r s) (xl, xr, 0)).1 : ZMod p) := by
  have := natFold_cast (p := p) Poseidon.CONSTANTS Poseidon.MATRIX (fun r => decide (r < 4) || decide (87 ≤ r))
    (List.range 91) (xl, xr, 0)
  have e : (toS3 (xl, xr, 0) : S3 (ZMod p)) = ⟨xl, xr, 0⟩ := by simp [toS3]
  rw [e] at this
  unfold poseidonSpec
  rw [show (8 + 83 : Nat) = 91 from rfl, show (8 / 2 : Nat) = 4 from rfl, show (4 + 83 : Nat) = 87 from rfl, this]
  rfl

/-- The native Rescue block with the tables of the code. -/
theorem rescue_block_nat (xl xr : Nat) :
    Rescue.block (readTable Rescue.CONSTANTS) (readTable Rescue.MATRIX) (xl : ZMod p) (xr : ZMod p) =
      (((List.range 44).foldl (natHalf p Rescue.CONSTANTS Rescue.MATRIX) (xl + entry Rescue.CONSTANTS 0 0,
        xr + entry Rescue.CONSTANTS 0 1, entry Rescue.CONSTANTS 0 2)).1 : ZMod p) := by
  have := natHalfFold_cast (p := p) Rescue.CONSTANTS Rescue.MATRIX (List.range 44) (xl + entry Rescue.CONSTANTS 0 0,
        xr + entry Rescue.CONSTANTS 0 1, entry Rescue.CONSTANTS 0 2)
  have e : (toList (xl + entry Rescue.CONSTANTS 0 0, xr + entry Rescue.CONSTANTS 0 1, entry Rescue.CONSTANTS 0 2) :
      List (ZMod p)) = (List.range 3).map fun i => [(xl : ZMod p), xr, 0].getD i 0 +
        ((readTable Rescue.CONSTANTS : List (List (ZMod p))).getD 0 []).getD i 0 := by
    simp only [readTable_getD]
    simp [toList, entry, List.range_succ]
  rw [e] at this
  unfold Rescue.block
  dsimp only
  rw [show 2 * Rescue.ROUNDS = 44 from rfl, this]
  rfl

theorem cast_ne {n m : Nat} (h : n % p ≠ m % p) : (n : ZMod p) ≠ (m : ZMod p) := fun e =>
  h ((ZMod.natCast_eq_natCast_iff' n m p).1 e)

/-! ### C71 -/

/-- C71 fails with the tables of the code, over BN254 and over BLS12-381: the block of 1 and 0 is not what the Poseidon
permutation with 8 full and 83 partial rounds gives. -/
theorem C71_violated_tables :
    Poseidon.block (readTable Poseidon.CONSTANTS) (readTable Poseidon.MATRIX) (1 : ZMod bnR) 0 ≠
      (poseidonSpec 8 83 (row3 (readTable Poseidon.CONSTANTS)) (mds3 (readTable Poseidon.MATRIX)) ⟨1, 0, 0⟩).a ∧
    Poseidon.block (readTable Poseidon.CONSTANTS) (readTable Poseidon.MATRIX) (1 : ZMod blsR) 0 ≠
      (poseidonSpec 8 83 (row3 (readTable Poseidon.CONSTANTS)) (mds3 (readTable Poseidon.MATRIX)) ⟨1, 0, 0⟩).a := by
  have k : ∀ (p : Nat) [Fact p.Prime],
      ((List.range 91).foldl (fun s r => natRound p Poseidon.CONSTANTS Poseidon.MATRIX (decide (r ≠ 4)) r s) (1, 0, 0)).1 % p ≠
      ((List.range 91).foldl (fun s r => natRound p Poseidon.CONSTANTS Poseidon.MATRIX
        (decide (r < 4) || decide (87 ≤ r)) r s) (1, 0, 0)).1 % p →
      Poseidon.block (readTable Poseidon.CONSTANTS) (readTable Poseidon.MATRIX) (1 : ZMod p) 0 ≠
      (poseidonSpec 8 83 (row3 (readTable Poseidon.CONSTANTS)) (mds3 (readTable Poseidon.MATRIX)) ⟨1, 0, 0⟩).a := by
    intro p _ h
    have e1 := poseidon_block_nat (p := p) 1 0
    have e2 := poseidon_spec_nat (p := p) 1 0
    rw [Nat.cast_one, Nat.cast_zero] at e1 e2
    rw [e1, e2]
    exact cast_ne h
  exact ⟨k bnR (by decide +kernel), k blsR (by decide +kernel)⟩

/-! ### C70 -/

theorem tables_shape {F : Type} [Field F] : Shape 45 (readTable Rescue.CONSTANTS : List (List F)) (readTable Rescue.MATRIX) ∧
    Shape 91 (readTable Poseidon.CONSTANTS : List (List F)) (readTable Poseidon.MATRIX) := by
  have hr : ∀ (t : List (List Nat)) i, ((readTable t : List (List F)).getD i []).length = (t.getD i []).length := by
    intro t i
    unfold readTable
    rw [List.getD_eq_getElem?_getD, List.getD_eq_getElem?_getD, List.getElem?_map]
    cases t[i]? <;> simp
  have h1 : ∀ i ∈ List.range 45, (Rescue.CONSTANTS.getD i []).length = 3 := by decide +kernel
  have h2 : ∀ i ∈ List.range 91, (Poseidon.CONSTANTS.getD i []).length = 3 := by decide +kernel
  exact ⟨⟨fun i hi => (hr _ i).trans (h1 i (List.mem_range.2 hi)), by simp [readTable]; decide +kernel⟩,
    ⟨fun i hi => (hr _ i).trans (h2 i (List.mem_range.2 hi)), by simp [readTable]; decide +kernel⟩⟩

/-- C70 fails with the tables of the code, over BN254 and over BLS12-381: an honest run for the block of 1 and 0
publishes something else than its hash. -/
theorem C70_violated_tables :
    ¬ C70_rescue_statement (readTable Rescue.CONSTANTS : List (List (ZMod bnR))) (readTable Rescue.MATRIX) ∧
    ¬ C70_rescue_statement (readTable Rescue.CONSTANTS : List (List (ZMod blsR))) (readTable Rescue.MATRIX) ∧
    ¬ C70_poseidon_statement (readTable Poseidon.CONSTANTS : List (List (ZMod bnR))) (readTable Poseidon.MATRIX) ∧
    ¬ C70_poseidon_statement (readTable Poseidon.CONSTANTS : List (List (ZMod blsR))) (readTable Poseidon.MATRIX) := by
  have r : ∀ (p : Nat) [Fact p.Prime], ((List.range 44).foldl (natHalf p Rescue.CONSTANTS Rescue.MATRIX)
        (1 + entry Rescue.CONSTANTS 0 0, 0 + entry Rescue.CONSTANTS 0 1, entry Rescue.CONSTANTS 0 2)).1 % p ≠
        entry Rescue.CONSTANTS 44 0 % p →
      ¬ C70_rescue_statement (readTable Rescue.CONSTANTS : List (List (ZMod p))) (readTable Rescue.MATRIX) := by
    intro p _ h hs
    obtain ⟨o, c, h1, _, h3⟩ := hs 1 0 (CS.new true) CS.good_new
    obtain ⟨o', c', h1', _, h3'⟩ := C70_rescue_constant_output _ _ (tables_shape (F := ZMod p)).1 1 0 (CS.new true) CS.good_new
    rw [h1, Except.ok.injEq, Prod.mk.injEq] at h1'
    obtain ⟨rfl, rfl⟩ := h1'
    have e := h3.unique h3'
    have e1 := rescue_block_nat (p := p) 1 0
    rw [Nat.cast_one, Nat.cast_zero] at e1
    rw [e1, readTable_getD] at e
    exact cast_ne h e
  have q : ∀ (p : Nat) [Fact p.Prime], ((List.range 91).foldl (fun s r => natRound p Poseidon.CONSTANTS Poseidon.MATRIX
        (decide (r ≠ 4)) r s) (1, 0, 0)).1 % p ≠ 0 % p →
      ¬ C70_poseidon_statement (readTable Poseidon.CONSTANTS : List (List (ZMod p))) (readTable Poseidon.MATRIX) := by
    intro p _ h hs
    obtain ⟨o, c, h1, _, h3⟩ := hs 1 0 (CS.new true) CS.good_new
    obtain ⟨o', c', h1', _, h3'⟩ := C70_poseidon_zero_output _ _ (tables_shape (F := ZMod p)).2 1 0 (CS.new true) CS.good_new
    rw [h1, Except.ok.injEq, Prod.mk.injEq] at h1'
    obtain ⟨rfl, rfl⟩ := h1'
    have e := h3.unique h3'
    have e1 := poseidon_block_nat (p := p) 1 0
    rw [Nat.cast_one, Nat.cast_zero] at e1
    rw [e1, ← Nat.cast_zero (R := ZMod p)] at e
    exact cast_ne h e
  exact ⟨r bnR (by decide +kernel), r blsR (by decide +kernel), q bnR (by decide +kernel), q blsR (by decide +kernel)⟩

/-- C70, what remains (`_partial`; missing: the public output is the hash of the block): with the tables of the code an
honest run succeeds with satisfied constraints, and the public output is a constant, the first entry of the last row of
constants for Rescue and zero for Poseidon. -/
theorem C70_partial {F : Type} [Field F] (xl xr : F) (cs : CS F) (hgood : cs.Good) :
    (∃ out cs', Rescue.circuit (readTable Rescue.CONSTANTS) (readTable Rescue.MATRIX) xl xr cs = .ok (out, cs') ∧ cs'.Good ∧
      VarIs cs' out ((entry Rescue.CONSTANTS 44 0 : Nat) : F)) ∧
    (∃ out cs', Poseidon.circuit (readTable Poseidon.CONSTANTS) (readTable Poseidon.MATRIX) xl xr cs = .ok (out, cs') ∧
      cs'.Good ∧ VarIs cs' out 0) := by
  classical
  have h := C70_rescue_constant_output (readTable Rescue.CONSTANTS : List (List F)) _ tables_shape.1 xl xr cs hgood
  rw [readTable_getD] at h
  exact ⟨h, C70_poseidon_zero_output _ _ tables_shape.2 xl xr cs hgood⟩

/-- C70_partial, concrete case. -/
example : (CS.new true : CS (ZMod bnR)).Good := CS.good_new

end Zkp
