/- Properties C01–C05: linear combinations, index encoding, ConstraintVar. -/
import Verif.Proof.LC
import Mathlib.Data.Rat.Defs
import Mathlib.Algebra.Field.Rat

set_option linter.unusedSectionVars false
set_option linter.unusedSimpArgs false

namespace Zkp

variable {F : Type} [Field F]

/-! ### C01 – linear-combination arithmetic is exact -/

/-- C01: every operator on linear combinations changes the value under every assignment exactly as
the corresponding field operation (operands arbitrary: any length, sorted or not, repeated
variables allowed). -/
theorem C01_lc_operators_exact (w : Index → F) (a b : LC F) (c k : F) (v : Index) :
    (LC.zero : LC F).eval w = 0 ∧
    (LC.ofVar v : LC F).eval w = w v ∧
    (LC.ofTerm c v).eval w = c * w v ∧
    (a.replace b).eval w = b.eval w ∧
    a.neg.eval w = -(a.eval w) ∧
    a.double.eval w = 2 * a.eval w ∧
    (a.scale k).eval w = k * a.eval w ∧
    (a.addVar v).eval w = a.eval w + w v ∧
    (a.subVar v).eval w = a.eval w - w v ∧
    (a.addTerm c v).eval w = a.eval w + c * w v ∧
    (a.subTerm c v).eval w = a.eval w - c * w v ∧
    (a.add b).eval w = a.eval w + b.eval w ∧
    (a.addRefVal b).eval w = a.eval w + b.eval w ∧
    (a.sub b).eval w = a.eval w - b.eval w ∧
    (a.subRefVal b).eval w = a.eval w - b.eval w ∧
    (a.addScaled k b).eval w = a.eval w + k * b.eval w ∧
    (a.subScaled k b).eval w = a.eval w - k * b.eval w := by
  refine ⟨by simp, by simp, by simp, by simp, by simp, ?_, by simp, by simp, by simp, by simp,
    by simp, by simp, by simp, by simp, by simp, by simp, by simp⟩
  rw [LC.eval_double]; ring

/-- Non-trivial instance for C01 (no hypotheses to meet): a seven-term combination takes the
binary-search path and merges, a two-term one takes the linear-scan path and duplicates. -/
example :
    ((LC.addTerm [(.input 0, 1), (.input 1, 1), (.aux 0, 2), (.aux 1, 1), (.aux 2, 1), (.aux 3, 1),
        (.aux 4, 1)] 5 (.aux 0) : LC ℚ).length = 7) ∧
    ((LC.addTerm [(.input 0, 1), (.aux 0, 2)] 5 (.aux 0) : LC ℚ).length = 3) := by
  decide +kernel

/-! ### C02 – linear combinations stay sorted -/

/-- C02: every combination obtained through the public constructors and operators is listed in the
documented order. -/
theorem C02_built_is_ordered (l : LC F) (h : LC.Built l) : l.Ordered := by
  induction h with
  | zero => simp [LC.zero, LC.Ordered]
  | ofTerm c v => simp [LC.ofTerm, LC.Ordered]
  | ofVar v => simp [LC.ofVar, LC.Ordered]
  | replace _ _ _ ihb => simpa [LC.replace] using ihb
  | neg _ ih => exact LC.ordered_neg _ ih
  | double _ ih => exact LC.ordered_map _ (fun c => c + c) ih
  | scale s _ ih => exact LC.ordered_scale _ s ih
  | addTerm c v _ ih => exact LC.ordered_addTerm _ c v ih
  | subTerm c v _ ih => exact LC.ordered_addTerm _ (-c) v ih
  | addVar v _ ih => exact LC.ordered_addTerm _ 1 v ih
  | subVar v _ ih => exact LC.ordered_addTerm _ (-1) v ih
  | add _ _ iha ihb => exact LC.ordered_add _ _ iha ihb
  | addRefVal _ _ iha ihb => exact LC.ordered_addRefVal _ _ iha ihb
  | sub _ _ iha ihb => exact LC.ordered_sub _ _ iha ihb
  | subRefVal _ _ iha ihb => exact LC.ordered_subRefVal _ _ iha ihb
  | addScaled k _ _ iha ihb => exact LC.ordered_addScaled _ _ k iha ihb
  | subScaled k _ _ iha ihb => exact LC.ordered_addScaled _ _ (-k) iha ihb

/-- The hypothesis of C02 is met by a combination built by several operators. -/
example : LC.Built (((LC.zero : LC ℚ).addVar (.aux 3)).addTerm 2 (.input 1) |>.sub
    (LC.ofTerm 5 (.aux 1))) :=
  .sub (.addTerm _ _ (.addVar _ .zero)) (.ofTerm _ _)

/-! ### C03 – repeated variables are merged (violated below six terms) -/

/-- C03 fails: adding the same variable twice to the empty combination leaves two terms for it
(`get_var_loc` answers "not found" for every list with fewer than six terms). -/
theorem C03_violated_duplicate_terms :
    ∃ l : LC ℚ, LC.Built l ∧ ¬ l.NoRepeat :=
  ⟨((LC.zero : LC ℚ).addVar (.aux 0)).addVar (.aux 0), .addVar _ (.addVar _ .zero), by
    unfold LC.NoRepeat; decide +kernel⟩

/-- Full statement of C03, false by `C03_violated_duplicate_terms`. -/
def C03_statement : Prop := ∀ (l : LC F), LC.Built l → l.NoRepeat

/-- C03, the part that holds: on an ordered combination of at least six terms, adding a
`(coefficient, variable)` pair whose variable is already present keeps the list of variables
unchanged (the coefficient is merged into an existing term); and merging two repetition-free
ordered combinations gives a repetition-free one.
Missing: combinations of fewer than six terms (see the violation above). -/
theorem C03_merge_partial (l : LC F) (ho : l.Ordered) (hlen : 6 ≤ l.length) (c : F) (v : Index)
    (hv : v ∈ l.map Prod.fst) : (l.addTerm c v).map Prod.fst = l.map Prod.fst := by
  have hmod : ∀ (l : LC F) (i : Nat), (l.modify i fun t => (t.1, t.2 + c)).map Prod.fst
      = l.map Prod.fst := by
    intro l
    induction l with
    | nil => intro i; cases i <;> simp
    | cons a l ih => intro i; cases i <;> simp [ih]
  unfold LC.addTerm
  split
  · exact hmod l _
  · next i heq =>
    exfalso
    unfold LC.getVarLoc at heq
    rw [if_neg (by omega)] at heq
    exact LC.binSearch_not_found l v ho i heq hv

theorem C03_add_partial (a b : LC F) (ha : a.Ordered) (hb : b.Ordered)
    (hna : a.NoRepeat) (hnb : b.NoRepeat) (k : F) :
    (a.add b).NoRepeat ∧ (a.sub b).NoRepeat ∧ (a.addScaled k b).NoRepeat := by
  have hmap : ∀ (l : LC F) (f : F → F), l.NoRepeat →
      LC.NoRepeat (l.map fun t => (t.1, f t.2)) := by
    intro l f h
    unfold LC.NoRepeat at *
    rw [List.map_map]; exact h
  refine ⟨?_, ?_, ?_⟩
  · unfold LC.add
    split
    · exact hna
    · split
      · exact hnb
      · exact LC.noRepeat_opImpl _ _ _ _ ha hb hna hnb
  · unfold LC.sub
    split
    · exact hna
    · split
      · exact hmap b _ hnb
      · exact LC.noRepeat_opImpl _ _ _ _ ha hb hna hnb
  · unfold LC.addScaled
    split
    · exact hna
    · split
      · exact hmap b (fun c => c * k) hnb
      · exact LC.noRepeat_opImpl _ _ _ _ ha hb hna hnb

/-- Hypotheses of `C03_merge_partial` are met by a six-term combination. -/
example : let l : LC ℚ := [(.input 0, 1), (.input 1, 1), (.aux 0, 2), (.aux 1, 1), (.aux 2, 1),
      (.aux 3, 1)]
    l.Ordered ∧ 6 ≤ l.length ∧ (Index.aux 1) ∈ l.map Prod.fst := by
  simp [LC.Ordered, Index.Le]

/-- Hypotheses of `C03_add_partial` are met by overlapping combinations. -/
example : let a : LC ℚ := [(.input 0, 1), (.aux 2, 2)]
    let b : LC ℚ := [(.aux 1, 3), (.aux 2, -2)]
    a.Ordered ∧ b.Ordered ∧ a.NoRepeat ∧ b.NoRepeat := by
  simp [LC.Ordered, Index.Le, LC.NoRepeat]

/-! ### C04 – index encoding -/

/-- The positions an index can hold on a 64-bit machine. -/
def Index.pos : Index → Nat
  | .input i => i
  | .aux i => i

/-- C04 (round trip): decoding an encoded index followed by any bytes returns the index, and
exactly `serialized_size` bytes are consumed. -/
theorem C04_round_trip (x : Index) (hx : x.pos < 2 ^ 64) (rest : List UInt8) :
    Index.deserialize (x.serialize ++ rest) = some (x, rest) ∧
    x.serialize.length = x.serializedSize := by
  have h : x.pos < 256 ^ 8 := by
    have : (256 : Nat) ^ 8 = 2 ^ 64 := by norm_num
    omega
  cases x with
  | input i =>
    refine ⟨?_, by simp [Index.serialize, length_leBytes, Index.serializedSize]⟩
    simp only [Index.serialize, List.cons_append, Index.deserialize]
    rw [readLe_leBytes 8 i rest h]; simp
  | aux i =>
    refine ⟨?_, by simp [Index.serialize, length_leBytes, Index.serializedSize]⟩
    simp only [Index.serialize, List.cons_append, Index.deserialize]
    rw [readLe_leBytes 8 i rest h]; simp

/-- C04 (no collisions): different indices have different encodings. -/
theorem C04_encoding_injective (x y : Index) (hx : x.pos < 2 ^ 64) (hy : y.pos < 2 ^ 64)
    (h : x.serialize = y.serialize) : x = y := by
  have h1 := (C04_round_trip x hx []).1
  have h2 := (C04_round_trip y hy []).1
  rw [h, h2] at h1
  simpa using h1.symm

/-- Remark to C04: the decoder is not injective; every non-zero tag byte is read as `Aux`. -/
theorem C04_decoder_accepts_noncanonical_tags (t : UInt8) (ht : t ≠ 0) (i : Nat)
    (hi : i < 2 ^ 64) : Index.deserialize (t :: leBytes 8 i) = some (.aux i, []) := by
  have h : i < 256 ^ 8 := by
    have : (256 : Nat) ^ 8 = 2 ^ 64 := by norm_num
    omega
  have := readLe_leBytes 8 i [] h
  rw [List.append_nil] at this
  simp [Index.deserialize, this, ht]

/-- Hypotheses of C04 are met at the largest position. -/
example : (Index.aux (2 ^ 64 - 1)).pos < 2 ^ 64 ∧
    (Index.aux (2 ^ 64 - 1)).serialize = [1, 255, 255, 255, 255, 255, 255, 255, 255] := by
  decide +kernel

/-! ### C05 – ConstraintVar -/

theorem ConstraintVar.eval_toLC (w : Index → F) (x : ConstraintVar F) :
    x.toLC.eval w = x.eval w := by cases x <;> simp [ConstraintVar.toLC, ConstraintVar.eval]

theorem ConstraintVar.eval_toLC' (w : Index → F) (x : ConstraintVar F) :
    x.toLC'.eval w = x.eval w := by cases x <;> simp [ConstraintVar.toLC', ConstraintVar.eval]

/-- C05: all operators of the wrapper are exact under every assignment. -/
theorem C05_constraintVar_operators_exact (w : Index → F) (x y : ConstraintVar F) (l : LC F)
    (k : F) (v : Index) :
    (ConstraintVar.zero : ConstraintVar F).eval w = 0 ∧
    (ConstraintVar.ofTerm k v).eval w = k * w v ∧
    (ConstraintVar.ofScaledLC k l).eval w = k * l.eval w ∧
    (ConstraintVar.ofScaled k x).eval w = k * x.eval w ∧
    x.neg.eval w = -(x.eval w) ∧
    x.double.eval w = 2 * x.eval w ∧
    (x.scale k).eval w = k * x.eval w ∧
    (x.addLC l).eval w = x.eval w + l.eval w ∧
    (x.subLC l).eval w = x.eval w - l.eval w ∧
    (x.addTerm k v).eval w = x.eval w + k * w v ∧
    (x.subTerm k v).eval w = x.eval w - k * w v ∧
    (x.addVar v).eval w = x.eval w + w v ∧
    (x.subVar v).eval w = x.eval w - w v ∧
    (x.add y).eval w = x.eval w + y.eval w ∧
    (x.sub y).eval w = x.eval w - y.eval w ∧
    (x.addRef y).eval w = x.eval w + y.eval w ∧
    (x.subRef y).eval w = x.eval w - y.eval w ∧
    (x.addScaled k y).eval w = x.eval w + k * y.eval w ∧
    (x.subScaled k y).eval w = x.eval w - k * y.eval w := by
  have hl := ConstraintVar.eval_toLC w x
  have hl' := ConstraintVar.eval_toLC' w x
  have hat : ∀ (c : F), (x.addTerm c v).eval w = x.eval w + c * w v := by
    intro c; cases x <;> simp [ConstraintVar.addTerm, ConstraintVar.eval]
  have hadd : ∀ z : ConstraintVar F, ∀ y : ConstraintVar F,
      (z.add y).eval w = z.eval w + y.eval w := by
    intro z y
    have := ConstraintVar.eval_toLC w z
    cases y <;> simp [ConstraintVar.add, ConstraintVar.eval, this]
  have hsub : ∀ z : ConstraintVar F, ∀ y : ConstraintVar F,
      (z.sub y).eval w = z.eval w - y.eval w := by
    intro z y
    have := ConstraintVar.eval_toLC w z
    cases y <;> simp [ConstraintVar.sub, ConstraintVar.eval, this]
  have hz : (ConstraintVar.zero : ConstraintVar F).eval w = 0 := by
    simp [ConstraintVar.zero, ConstraintVar.eval]
  refine ⟨hz, ?_, ?_, ?_, ?_, ?_, ?_, ?_, ?_, hat k, ?_, ?_, ?_, hadd x y, hsub x y, ?_, ?_, ?_, ?_⟩
  · simp [ConstraintVar.ofTerm, ConstraintVar.eval]
  · simp [ConstraintVar.ofScaledLC, ConstraintVar.eval]
  · cases x <;> simp [ConstraintVar.ofScaled, ConstraintVar.ofScaledLC, ConstraintVar.ofTerm,
      ConstraintVar.eval]
  · cases x <;> simp [ConstraintVar.neg, ConstraintVar.ofTerm, ConstraintVar.eval]
  · cases x <;> simp only [ConstraintVar.double, ConstraintVar.ofTerm, ConstraintVar.eval,
      LC.eval_double, LC.eval_ofTerm] <;> ring
  · cases x <;> simp [ConstraintVar.scale, ConstraintVar.ofTerm, ConstraintVar.eval]
  · cases x <;> simp [ConstraintVar.addLC, ConstraintVar.eval] <;> ring
  · cases x <;> simp [ConstraintVar.subLC, ConstraintVar.eval]
  · simp only [ConstraintVar.subTerm, hat]; ring
  · simp only [ConstraintVar.addVar, hat]; ring
  · simp only [ConstraintVar.subVar, ConstraintVar.subTerm, hat]; ring
  · simp only [ConstraintVar.addRef, hadd, hz]; ring
  · simp only [ConstraintVar.subRef, hadd, hsub, hz]; ring
  · cases y <;> simp [ConstraintVar.addScaled, ConstraintVar.eval, hl']
  · cases y <;> simp [ConstraintVar.subScaled, ConstraintVar.eval, hl']

/-- Non-trivial instance for C05 (no hypotheses): subtracting a combination from a variable. -/
example : ((ConstraintVar.var (.aux 1) : ConstraintVar ℚ).subLC [(.input 0, 3)]).eval
    (fun i => if i = .aux 1 then 10 else 1) = 7 := by
  simp [ConstraintVar.subLC, LC.eval_neg, LC.eval_subVar]; norm_num

end Zkp
