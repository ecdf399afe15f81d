/- C104: the tables of Rescue and Poseidon: their matrices spread differences as far as possible. -/
import Verif.Model.HashTables
import Verif.Props.RescueExp
import Mathlib.Tactic.LinearCombination

set_option linter.unusedSectionVars false
set_option linter.unusedSimpArgs false

namespace Zkp

open Rescue

/-- The number of positions in which two states differ. -/
def differ {F : Type} [Field F] [DecidableEq F] (s t : List F) : Nat :=
  ((List.range 3).filter fun k => decide (s.getD k 0 ≠ t.getD k 0)).length

/-- C104 for one map of states (the round of a hash function): two different states differ, before and after it together,
in at least four positions. (For three positions no linear layer does better.) -/
def Spreads {F : Type} [Field F] [DecidableEq F] (round : List F → List F) : Prop :=
  ∀ s t : List F, s.length = 3 → t.length = 3 → s ≠ t → 4 ≤ differ s t + differ (round s) (round t)

/-- All minors of a table of numbers are nonzero modulo `p`. -/
def Minors (p : Nat) (m : List (List Nat)) : Prop :=
  let e := fun i k => (m.getD i []).getD k 0
  (∀ i ∈ List.range 3, ∀ k ∈ List.range 3, e i k % p ≠ 0) ∧
  (∀ i ∈ List.range 3, ∀ j ∈ List.range 3, ∀ k ∈ List.range 3, ∀ l ∈ List.range 3,
    i = j ∨ k = l ∨ e i k * e j l % p ≠ e i l * e j k % p) ∧
  (e 0 0 * e 1 1 * e 2 2 + e 0 1 * e 1 2 * e 2 0 + e 0 2 * e 1 0 * e 2 1) % p ≠
    (e 0 2 * e 1 1 * e 2 0 + e 0 1 * e 1 0 * e 2 2 + e 0 0 * e 1 2 * e 2 1) % p

instance (p : Nat) (m : List (List Nat)) : Decidable (Minors p m) := by
  unfold Minors; dsimp only; infer_instance

theorem rescue_minors : Minors bnR Rescue.MATRIX ∧ Minors blsR Rescue.MATRIX := by decide +kernel

theorem poseidon_minors : Minors bnR Poseidon.MATRIX ∧ Minors blsR Poseidon.MATRIX := by decide +kernel

variable {F : Type} [Field F] [DecidableEq F]

/-- The same for a matrix over a field. -/
structure FieldMinors (e : Nat → Nat → F) : Prop where
  one : ∀ i < 3, ∀ k < 3, e i k ≠ 0
  two : ∀ i < 3, ∀ j < 3, i ≠ j → ∀ k < 3, ∀ l < 3, k ≠ l → e i k * e j l ≠ e i l * e j k
  three : e 0 0 * e 1 1 * e 2 2 + e 0 1 * e 1 2 * e 2 0 + e 0 2 * e 1 0 * e 2 1 ≠
    e 0 2 * e 1 1 * e 2 0 + e 0 1 * e 1 0 * e 2 2 + e 0 0 * e 1 2 * e 2 1

theorem readTable_getD (m : List (List Nat)) (i k : Nat) :
    ((readTable m : List (List F)).getD i []).getD k 0 = (((m.getD i []).getD k 0 : Nat) : F) := by
  unfold readTable
  rw [List.getD_eq_getElem?_getD, List.getD_eq_getElem?_getD, List.getD_eq_getElem?_getD, List.getD_eq_getElem?_getD,
    List.getElem?_map]
  cases h : m[i]? with
  | none => simp
  | some r =>
    simp only [Option.map_some, Option.getD_some, List.getElem?_map]
    cases r[k]? <;> simp

theorem Minors.field {p : Nat} [Fact p.Prime] {m : List (List Nat)} (h : Minors p m) :
    FieldMinors (fun i k => ((readTable m : List (List (ZMod p))).getD i []).getD k 0) := by
  obtain ⟨h1, h2, h3⟩ := h
  refine ⟨fun i hi k hk e => h1 i (List.mem_range.2 hi) k (List.mem_range.2 hk) ?_, fun i hi j hj hij k hk l hl hkl e =>
    (((h2 i (List.mem_range.2 hi) j (List.mem_range.2 hj) k (List.mem_range.2 hk) l (List.mem_range.2 hl)).resolve_left
      hij).resolve_left hkl) ?_,
    fun e => h3 ?_⟩
  · simp only [readTable_getD] at e
    have : (((m.getD i []).getD k 0 : Nat) : ZMod p) = ((0 : Nat) : ZMod p) := by rw [e]; simp
    rw [ZMod.natCast_eq_natCast_iff'] at this
    simpa using this
  · simp only [readTable_getD] at e
    rw [← ZMod.natCast_eq_natCast_iff']
    push_cast
    exact e
  · simp only [readTable_getD] at e
    rw [← ZMod.natCast_eq_natCast_iff']
    push_cast
    exact e

theorem two_zero {a b c d x y : F} (h : a * d ≠ b * c) (hx : x ≠ 0) (h1 : a * x + b * y = 0) (h2 : c * x + d * y = 0) : False := by
  have : (a * d - b * c) * x = 0 := by linear_combination d * h1 - b * h2
  rcases mul_eq_zero.1 this with h' | h'
  · exact h (sub_eq_zero.1 h')
  · exact hx h'

/-- The sum of the numbers of nonzero entries of a vector and its image. -/
theorem weight_four {e : Nat → Nat → F} (h : FieldMinors e) (x y z : F) (hne : ¬(x = 0 ∧ y = 0 ∧ z = 0)) :
    4 ≤ ((if x = 0 then 0 else 1) + (if y = 0 then 0 else 1) + (if z = 0 then 0 else 1)) +
      ((if e 0 0 * x + e 0 1 * y + e 0 2 * z = 0 then 0 else 1) +
       (if e 1 0 * x + e 1 1 * y + e 1 2 * z = 0 then 0 else 1) +
       (if e 2 0 * x + e 2 1 * y + e 2 2 * z = 0 then 0 else 1)) := by
  have o : ∀ i < 3, ∀ k < 3, e i k ≠ 0 := h.one
  have w : ∀ i < 3, ∀ j < 3, i ≠ j → ∀ k < 3, ∀ l < 3, k ≠ l → ∀ x y : F, x ≠ 0 → e i k * x + e i l * y = 0 →
      e j k * x + e j l * y = 0 → False := fun i hi j hj hij k hk l hl hkl x y hx h1 h2 =>
    two_zero (h.two i hi j hj hij k hk l hl hkl) hx h1 h2
  by_cases hx : x = 0 <;> by_cases hy : y = 0 <;> by_cases hz : z = 0
  · exact absurd ⟨hx, hy, hz⟩ hne
  · subst hx hy
    simp [hz, o]
  · subst hx hz
    simp [hy, o]
  · subst hx
    have w01 := w 0 (by omega) 1 (by omega) (by omega) 1 (by omega) 2 (by omega) (by omega) y z hy
    have w02 := w 0 (by omega) 2 (by omega) (by omega) 1 (by omega) 2 (by omega) (by omega) y z hy
    have w12 := w 1 (by omega) 2 (by omega) (by omega) 1 (by omega) 2 (by omega) (by omega) y z hy
    simp only [hy, hz, if_true, if_false, mul_zero, zero_add]
    split_ifs <;> simp_all
  · subst hy hz
    simp [hx, o]
  · subst hy
    have w01 := w 0 (by omega) 1 (by omega) (by omega) 0 (by omega) 2 (by omega) (by omega) x z hx
    have w02 := w 0 (by omega) 2 (by omega) (by omega) 0 (by omega) 2 (by omega) (by omega) x z hx
    have w12 := w 1 (by omega) 2 (by omega) (by omega) 0 (by omega) 2 (by omega) (by omega) x z hx
    simp only [hx, hz, if_true, if_false, mul_zero, add_zero]
    split_ifs <;> simp_all
  · subst hz
    have w01 := w 0 (by omega) 1 (by omega) (by omega) 0 (by omega) 1 (by omega) (by omega) x y hx
    have w02 := w 0 (by omega) 2 (by omega) (by omega) 0 (by omega) 1 (by omega) (by omega) x y hx
    have w12 := w 1 (by omega) 2 (by omega) (by omega) 0 (by omega) 1 (by omega) (by omega) x y hx
    simp only [hx, hy, if_true, if_false, mul_zero, add_zero]
    split_ifs <;> simp_all
  · simp only [hx, hy, hz, if_false]
    split_ifs with h0 h1 h2 <;> try omega
    exfalso
    have hd := h.three
    have : (e 0 0 * e 1 1 * e 2 2 + e 0 1 * e 1 2 * e 2 0 + e 0 2 * e 1 0 * e 2 1 -
      (e 0 2 * e 1 1 * e 2 0 + e 0 1 * e 1 0 * e 2 2 + e 0 0 * e 1 2 * e 2 1)) * x = 0 := by
      linear_combination (e 1 1 * e 2 2 - e 1 2 * e 2 1) * h0 - (e 0 1 * e 2 2 - e 0 2 * e 2 1) * h1 +
        (e 0 1 * e 1 2 - e 0 2 * e 1 1) * h2
    rcases mul_eq_zero.1 this with h' | h'
    · exact hd (sub_eq_zero.1 h')
    · exact hx h'

theorem differ_three (a b c a' b' c' : F) : differ [a, b, c] [a', b', c'] =
    (if a - a' = 0 then 0 else 1) + (if b - b' = 0 then 0 else 1) + (if c - c' = 0 then 0 else 1) := by
  unfold differ
  simp only [sub_eq_zero]
  by_cases h1 : a = a' <;> by_cases h2 : b = b' <;> by_cases h3 : c = c' <;> simp [List.range_succ, h1, h2, h3]

theorem mixed_spreads {mds : List (List F)} (h : FieldMinors (fun i k => (mds.getD i []).getD k 0)) (c : List F) :
    Spreads fun s => mixed mds s c := by
  intro s t hs ht hne
  match s, hs, t, ht with
  | [x, y, z], _, [x', y', z'], _ =>
    have hw := weight_four h (x - x') (y - y') (z - z') (by
      rintro ⟨h1, h2, h3⟩
      exact hne (by rw [sub_eq_zero.1 h1, sub_eq_zero.1 h2, sub_eq_zero.1 h3]))
    have e : ∀ x y z : F, mixed mds [x, y, z] c = [
        (mds.getD 0 []).getD 0 0 * x + (mds.getD 0 []).getD 1 0 * y + (mds.getD 0 []).getD 2 0 * z + c.getD 0 0,
        (mds.getD 1 []).getD 0 0 * x + (mds.getD 1 []).getD 1 0 * y + (mds.getD 1 []).getD 2 0 * z + c.getD 1 0,
        (mds.getD 2 []).getD 0 0 * x + (mds.getD 2 []).getD 1 0 * y + (mds.getD 2 []).getD 2 0 * z + c.getD 2 0] := by
      intro x y z
      simp [mixed, List.range_succ, Finset.sum_range_succ]
    show 4 ≤ differ [x, y, z] [x', y', z'] + differ (mixed mds [x, y, z] c) (mixed mds [x', y', z'] c)
    rw [e, e, differ_three, differ_three]
    have l : ∀ i, (mds.getD i []).getD 0 0 * x + (mds.getD i []).getD 1 0 * y + (mds.getD i []).getD 2 0 * z + c.getD i 0 -
        ((mds.getD i []).getD 0 0 * x' + (mds.getD i []).getD 1 0 * y' + (mds.getD i []).getD 2 0 * z' + c.getD i 0) =
        (mds.getD i []).getD 0 0 * (x - x') + (mds.getD i []).getD 1 0 * (y - y') + (mds.getD i []).getD 2 0 * (z - z') := by
      intro i; ring
    rw [l, l, l]
    exact hw

/-- A power layer that is injective on every position does not change where states differ. -/
theorem Spreads.comp {g : List F → List F} (hg : Spreads g) (f0 f1 f2 : F → F) (i0 : Function.Injective f0)
    (i1 : Function.Injective f1) (i2 : Function.Injective f2) (f : List F → List F)
    (hf : ∀ x y z, f [x, y, z] = [f0 x, f1 y, f2 z]) : Spreads fun s => g (f s) := by
  intro s t hs ht hne
  match s, hs, t, ht with
  | [x, y, z], _, [x', y', z'], _ =>
    have h := hg (f [x, y, z]) (f [x', y', z']) (by rw [hf]; rfl) (by rw [hf]; rfl) (by
      rw [hf, hf]
      intro e
      obtain ⟨e0, e⟩ := List.cons.inj e
      obtain ⟨e1, e⟩ := List.cons.inj e
      obtain ⟨e2, -⟩ := List.cons.inj e
      exact hne (by rw [i0 e0, i1 e1, i2 e2]))
    have e : differ (f [x, y, z]) (f [x', y', z']) = differ [x, y, z] [x', y', z'] := by
      rw [hf, hf, differ_three, differ_three]
      simp only [sub_eq_zero, i0.eq_iff, i1.eq_iff, i2.eq_iff]
    rw [e] at h
    exact h

theorem Spreads.injective {g : List F → List F} (hg : Spreads g) {s t : List F} (hs : s.length = 3) (ht : t.length = 3)
    (h : g s = g t) : s = t := by
  by_contra hne
  have h4 := hg s t hs ht hne
  have h1 : differ s t ≤ 3 := by
    unfold differ
    exact (List.length_filter_le _ _).trans (by simp)
  have h2 : differ (g s) (g t) = 0 := by rw [h]; simp [differ]
  omega

/-! ### The powers -/

theorem pow_inj (p n m : Nat) [Fact p.Prime] (h : n * m % (p - 1) = 1) : Function.Injective fun x : ZMod p => x ^ n :=
  Function.LeftInverse.injective (g := fun x => x ^ m) fun x => by
    show (x ^ n) ^ m = x
    rw [← pow_mul]; exact pow_one_mod _ _ h x

/-- Both exponents give injective powers in both fields (over BLS12-381 they are not inverse to each other, C82). -/
theorem exponent_inj (i : Nat) : Function.Injective (fun x : ZMod bnR => x ^ limbsVal (exponent i)) ∧
    Function.Injective (fun x : ZMod blsR => x ^ limbsVal (exponent i)) := by
  unfold exponent
  split
  · exact ⟨pow_inj _ _ 5 (by decide +kernel), pow_inj _ _ 0x61f4ddc67146a5272ab495ca2cb4c4661bb59d0702d95c47c220539940000005
      (by decide +kernel)⟩
  · exact ⟨pow_inj _ _ (limbsVal INVALPH) (by decide +kernel), pow_inj _ _
      0x2e5f0fbadd72321ce14a56699d73f002217f0e679998f19933333332cccccccd (by decide +kernel)⟩

/-! ### C104 -/

/-- C104, the sizes: matrices of three rows of three entries, one row of constants for the start and one for each of
the 44 half-rounds of Rescue, one for each of the 91 rounds of Poseidon. No index into a table is out of range. -/
theorem C104_sizes :
    (Rescue.MATRIX.length = 3 ∧ ∀ r ∈ Rescue.MATRIX, r.length = 3) ∧
    (Rescue.CONSTANTS.length = 2 * Rescue.ROUNDS + 1 ∧ ∀ r ∈ Rescue.CONSTANTS, r.length = 3) ∧
    (Poseidon.MATRIX.length = 3 ∧ ∀ r ∈ Poseidon.MATRIX, r.length = 3) ∧
    (Poseidon.CONSTANTS.length = Poseidon.ROUNDS ∧ ∀ r ∈ Poseidon.CONSTANTS, r.length = 3) := by decide +kernel

/-- C104, the entries: every entry is a reduced element of both fields (reading does not change it), no entry is zero,
and all entries of a hash function's tables are different. -/
theorem C104_entries :
    (∀ n ∈ (Rescue.MATRIX ++ Rescue.CONSTANTS).flatten, 0 < n ∧ n < bnR ∧ n < blsR) ∧
    (Rescue.MATRIX ++ Rescue.CONSTANTS).flatten.Nodup ∧
    (∀ n ∈ (Poseidon.MATRIX ++ Poseidon.CONSTANTS).flatten, 0 < n ∧ n < bnR ∧ n < blsR) ∧
    (Poseidon.MATRIX ++ Poseidon.CONSTANTS).flatten.Nodup := by decide +kernel

theorem rescue_spreads {p : Nat} [Fact p.Prime] (hm : Minors p Rescue.MATRIX) (i : Nat)
    (hinj : Function.Injective fun x : ZMod p => x ^ limbsVal (exponent i)) :
    Spreads fun s : List (ZMod p) => halfRound (readTable Rescue.CONSTANTS) (readTable Rescue.MATRIX) s i := by
  have h := (mixed_spreads hm.field ((readTable Rescue.CONSTANTS : List (List (ZMod p))).getD (i + 1) [])).comp
    _ _ _ hinj hinj hinj (fun s => s.map fun x => x ^ limbsVal (exponent i)) (fun _ _ _ => rfl)
  simpa only [halfRound_mixed] using h

/-- C104, Rescue over BN254 and over BLS12-381: every half-round spreads differences as far as possible. -/
theorem C104_rescue (i : Nat) :
    (Spreads fun s : List (ZMod bnR) => halfRound (readTable Rescue.CONSTANTS) (readTable Rescue.MATRIX) s i) ∧
    (Spreads fun s : List (ZMod blsR) => halfRound (readTable Rescue.CONSTANTS) (readTable Rescue.MATRIX) s i) :=
  ⟨rescue_spreads rescue_minors.1 i (exponent_inj i).1, rescue_spreads rescue_minors.2 i (exponent_inj i).2⟩

/-- One round of Poseidon in terms of its layers. -/
theorem round_mixed {F : Type} [Field F] (ark mds : List (List F)) (s : List F) (i : Nat) :
    Poseidon.round ark mds s i = mixed mds
      (let s := (List.range 3).map fun j => s.getD j 0 + (ark.getD i []).getD j 0
       if Poseidon.isFull i then s.map fun x => x ^ limbsVal ALPH else s.set 2 (s.getD 2 0 ^ limbsVal ALPH)) [] := by
  unfold Poseidon.round mixed
  refine List.map_congr_left fun j _ => ?_
  simp only [List.range_succ, Finset.sum_range_succ, List.range_zero, List.nil_append, List.cons_append, List.foldl_cons,
    List.foldl_nil, Finset.sum_range_zero, List.getD_nil, add_zero]
  rfl

theorem poseidon_spreads {p : Nat} [Fact p.Prime] (hm : Minors p Poseidon.MATRIX)
    (h5 : Function.Injective (fun x : ZMod p => x ^ limbsVal ALPH)) (i : Nat) :
    Spreads fun s : List (ZMod p) => Poseidon.round (readTable Poseidon.CONSTANTS) (readTable Poseidon.MATRIX) s i := by
  have hadd : ∀ c : ZMod p, Function.Injective fun x : ZMod p => x + c := fun c => add_left_injective c
  simp only [round_mixed]
  generalize hrow : (readTable Poseidon.CONSTANTS : List (List (ZMod p))).getD i [] = row
  cases hfull : Poseidon.isFull i
  · exact (mixed_spreads hm.field []).comp (fun x => x + row.getD 0 0) (fun x => x + row.getD 1 0)
      (fun x => (x + row.getD 2 0) ^ limbsVal ALPH) (hadd _) (hadd _) (h5.comp (hadd _)) _
      (fun x y z => by simp [List.range_succ])
  · exact (mixed_spreads hm.field []).comp (fun x => (x + row.getD 0 0) ^ limbsVal ALPH)
      (fun x => (x + row.getD 1 0) ^ limbsVal ALPH)
      (fun x => (x + row.getD 2 0) ^ limbsVal ALPH) (h5.comp (hadd _)) (h5.comp (hadd _)) (h5.comp (hadd _)) _
      (fun x y z => by simp [List.range_succ])

/-- C104, Poseidon over BN254 and over BLS12-381: every round spreads differences as far as possible. -/
theorem C104_poseidon (i : Nat) :
    (Spreads fun s : List (ZMod bnR) => Poseidon.round (readTable Poseidon.CONSTANTS) (readTable Poseidon.MATRIX) s i) ∧
    (Spreads fun s : List (ZMod blsR) => Poseidon.round (readTable Poseidon.CONSTANTS) (readTable Poseidon.MATRIX) s i) :=
  ⟨poseidon_spreads poseidon_minors.1 (exponent_inj 0).1 i, poseidon_spreads poseidon_minors.2 (exponent_inj 0).2 i⟩

/-- C104, concrete case: the differences of two states before and after the first half-round. -/
example : differ [(1 : ZMod bnR), 2, 0] [1, 3, 0] = 1 ∧
    differ (halfRound (readTable Rescue.CONSTANTS) (readTable Rescue.MATRIX) [(1 : ZMod bnR), 2, 0] 0)
      (halfRound (readTable Rescue.CONSTANTS) (readTable Rescue.MATRIX) [1, 3, 0] 0) = 3 := by
  have h23 : (2 : ZMod bnR) ≠ 3 := by
    intro h
    have h3 : ((2 : Nat) : ZMod bnR) = ((3 : Nat) : ZMod bnR) := by exact_mod_cast h
    rw [ZMod.natCast_eq_natCast_iff'] at h3
    revert h3; decide +kernel
  have h1 : differ [(1 : ZMod bnR), 2, 0] [1, 3, 0] = 1 := by simp [differ, List.range_succ, h23]
  refine ⟨h1, ?_⟩
  have h := (C104_rescue 0).1 [1, 2, 0] [1, 3, 0] rfl rfl (by simpa using h23)
  have h3 : ∀ s t : List (ZMod bnR), differ s t ≤ 3 := fun s t =>
    (List.length_filter_le _ _).trans (by simp)
  have := h3 (halfRound (readTable Rescue.CONSTANTS) (readTable Rescue.MATRIX) [(1 : ZMod bnR), 2, 0] 0)
      (halfRound (readTable Rescue.CONSTANTS) (readTable Rescue.MATRIX) [1, 3, 0] 0)
  rw [h1] at h
  dsimp only at h
  omega

/-- Not every round has the property: the identity does not. -/
example : ¬ Spreads fun s : List (ZMod 7) => s := by
  intro h
  have := h [1, 2, 0] [1, 3, 0] rfl rfl (by decide)
  revert this
  decide

theorem fold_inj {F : Type} (g : List F → Nat → List F) (hlen : ∀ s i, (g s i).length = 3)
    (hinj : ∀ i s t, s.length = 3 → t.length = 3 → g s i = g t i → s = t) (n : Nat) (s t : List F) (hs : s.length = 3)
    (ht : t.length = 3) (h : (List.range n).foldl g s = (List.range n).foldl g t) : s = t := by
  have hl : ∀ n (s : List F), s.length = 3 → ((List.range n).foldl g s).length = 3 := by
    intro n s hs
    cases n with
    | zero => exact hs
    | succ n => rw [List.range_succ, List.foldl_append]; exact hlen _ _
  induction n with
  | zero => exact h
  | succ n ih =>
    rw [List.range_succ, List.foldl_append, List.foldl_append] at h
    exact ih (hinj n _ _ (hl n s hs) (hl n t ht) h)

/-- C104, consequence: with the tables of the code, all rounds together lose nothing of the state, for both hash functions
over both fields. -/
theorem C104_injective (n : Nat) :
    (∀ s t : List (ZMod bnR), s.length = 3 → t.length = 3 →
      (List.range n).foldl (halfRound (readTable Rescue.CONSTANTS) (readTable Rescue.MATRIX)) s =
        (List.range n).foldl (halfRound (readTable Rescue.CONSTANTS) (readTable Rescue.MATRIX)) t → s = t) ∧
    (∀ s t : List (ZMod blsR), s.length = 3 → t.length = 3 →
      (List.range n).foldl (halfRound (readTable Rescue.CONSTANTS) (readTable Rescue.MATRIX)) s =
        (List.range n).foldl (halfRound (readTable Rescue.CONSTANTS) (readTable Rescue.MATRIX)) t → s = t) ∧
    (∀ s t : List (ZMod bnR), s.length = 3 → t.length = 3 →
      (List.range n).foldl (Poseidon.round (readTable Poseidon.CONSTANTS) (readTable Poseidon.MATRIX)) s =
        (List.range n).foldl (Poseidon.round (readTable Poseidon.CONSTANTS) (readTable Poseidon.MATRIX)) t → s = t) ∧
    (∀ s t : List (ZMod blsR), s.length = 3 → t.length = 3 →
      (List.range n).foldl (Poseidon.round (readTable Poseidon.CONSTANTS) (readTable Poseidon.MATRIX)) s =
        (List.range n).foldl (Poseidon.round (readTable Poseidon.CONSTANTS) (readTable Poseidon.MATRIX)) t → s = t) :=
  ⟨fun s t => fold_inj _ (fun s i => by simp [halfRound]) (fun i s t hs ht h => (C104_rescue i).1.injective hs ht h) n s t,
    fun s t => fold_inj _ (fun s i => by simp [halfRound]) (fun i s t hs ht h => (C104_rescue i).2.injective hs ht h) n s t,
    fun s t => fold_inj _ (fun s i => by simp [Poseidon.round]) (fun i s t hs ht h => (C104_poseidon i).1.injective hs ht h) n s t,
    fun s t => fold_inj _ (fun s i => by simp [Poseidon.round]) (fun i s t hs ht h => (C104_poseidon i).2.injective hs ht h) n s t⟩

end Zkp
