/- Extraction for the inner-product argument of Bulletproofs. -/
import Verif.Spec.Rewind
import Verif.Proof.BulletproofsComplete
import Mathlib.Tactic.LinearCombination
import Mathlib.Tactic.Module
import Mathlib.Tactic.FieldSimp
import Mathlib.Algebra.Polynomial.Roots
import Mathlib.Tactic.ComputeDegree

set_option linter.unusedSectionVars false
set_option linter.unusedSimpArgs false

namespace Zkp.Bp

variable {F : Type} [Field F] [DecidableEq F]
variable {G : Type} [AddCommGroup G] [Module F G]

/-- Coefficients of `g`, of `h` and of `u`. -/
abbrev Rep (F : Type) := (Nat → F) × (Nat → F) × F

/-- The group element with these coefficients. -/
def value (n : Nat) (g h : Nat → G) (u : G) (r : Rep F) : G :=
  ∑ i ∈ Finset.range n, r.1 i • g i + ∑ i ∈ Finset.range n, r.2.1 i • h i + r.2.2 • u

theorem value_add (n : Nat) (g h : Nat → G) (u : G) (r s : Rep F) :
    value n g h u (r + s) = value n g h u r + value n g h u s := by
  simp only [value, Prod.fst_add, Prod.snd_add, Pi.add_apply, add_smul, Finset.sum_add_distrib]
  abel

theorem value_smul (n : Nat) (g h : Nat → G) (u : G) (c : F) (r : Rep F) :
    value n g h u (c • r) = c • value n g h u r := by
  simp only [value, Prod.smul_fst, Prod.smul_snd, Pi.smul_apply, smul_eq_mul, mul_smul, smul_add, Finset.smul_sum]

/-- The bases of the next round. -/
def half (n : Nat) (x y : F) (g : Nat → G) (i : Nat) : G := x • g i + y • g (i + n)

/-- Coefficients of the bases of the next round as coefficients of the bases of this round. -/
def up (n : Nat) (x : F) (r : Rep F) : Rep F :=
  (fun i => if i < n then x⁻¹ * r.1 i else x * r.1 (i - n),
   fun i => if i < n then x * r.2.1 i else x⁻¹ * r.2.1 (i - n), r.2.2)

theorem up_value (n : Nat) (x : F) (g h : Nat → G) (u : G) (r : Rep F) :
    value (n + n) g h u (up n x r) = value n (half n x⁻¹ x g) (half n x x⁻¹ h) u r := by
  have key : ∀ (a b : F) (g : Nat → G) (s : Nat → F),
      ∑ i ∈ Finset.range (n + n), (if i < n then a * s i else b * s (i - n)) • g i =
        ∑ i ∈ Finset.range n, s i • half n a b g i := by
    intro a b g s
    rw [Finset.sum_range_add, ← Finset.sum_add_distrib]
    refine Finset.sum_congr rfl fun i hi => ?_
    have hi := Finset.mem_range.mp hi
    rw [if_pos hi, if_neg (by omega), Nat.add_sub_cancel_left, half, Nat.add_comm n i]
    module
  unfold value up
  simp only [key]

/-- Equal as coefficients of `n` bases. -/
def Same (n : Nat) (r s : Rep F) : Prop :=
  (∀ i < n, r.1 i = s.1 i) ∧ (∀ i < n, r.2.1 i = s.2.1 i) ∧ r.2.2 = s.2.2

instance (n : Nat) (r s : Rep F) : Decidable (Same n r s) := by unfold Same; infer_instance

/-- The coefficient of degree `2` of the parabola through three points. -/
def quad2 {M : Type} [AddCommGroup M] [Module F M] (y : Fin 4 → F) (v : Fin 4 → M) : M :=
  ((y 0 - y 1) * (y 0 - y 2))⁻¹ • v 0 + ((y 1 - y 0) * (y 1 - y 2))⁻¹ • v 1 + ((y 2 - y 0) * (y 2 - y 1))⁻¹ • v 2

/-- The coefficient of degree `1`. -/
def quad1 {M : Type} [AddCommGroup M] [Module F M] (y : Fin 4 → F) (v : Fin 4 → M) : M :=
  (-(y 1 + y 2) * ((y 0 - y 1) * (y 0 - y 2))⁻¹) • v 0 + (-(y 0 + y 2) * ((y 1 - y 0) * (y 1 - y 2))⁻¹) • v 1
    + (-(y 0 + y 1) * ((y 2 - y 0) * (y 2 - y 1))⁻¹) • v 2

/-- The coefficient of degree `0`. -/
def quad0 {M : Type} [AddCommGroup M] [Module F M] (y : Fin 4 → F) (v : Fin 4 → M) : M :=
  ((y 1 * y 2) * ((y 0 - y 1) * (y 0 - y 2))⁻¹) • v 0 + ((y 0 * y 2) * ((y 1 - y 0) * (y 1 - y 2))⁻¹) • v 1
    + ((y 0 * y 1) * ((y 2 - y 0) * (y 2 - y 1))⁻¹) • v 2

/-- The parabola goes through the three points. -/
theorem quad_at {M : Type} [AddCommGroup M] [Module F M] {y : Fin 4 → F} (hy : Function.Injective y)
    (v : Fin 4 → M) (j : Fin 4) (hj : j ≠ 3) :
    quad0 y v + y j • quad1 y v + y j ^ 2 • quad2 y v = v j := by
  have h01 : y 0 - y 1 ≠ 0 := sub_ne_zero.mpr (hy.ne (by decide))
  have h02 : y 0 - y 2 ≠ 0 := sub_ne_zero.mpr (hy.ne (by decide))
  have h12 : y 1 - y 2 ≠ 0 := sub_ne_zero.mpr (hy.ne (by decide))
  have h10 : y 1 - y 0 ≠ 0 := sub_ne_zero.mpr (hy.ne (by decide))
  have h20 : y 2 - y 0 ≠ 0 := sub_ne_zero.mpr (hy.ne (by decide))
  have h21 : y 2 - y 1 ≠ 0 := sub_ne_zero.mpr (hy.ne (by decide))
  unfold quad0 quad1 quad2
  fin_cases j
  · show _ + y 0 • _ + y 0 ^ 2 • _ = v 0
    match_scalars <;> field_simp <;> ring
  · show _ + y 1 • _ + y 1 ^ 2 • _ = v 1
    match_scalars <;> field_simp <;> ring
  · show _ + y 2 • _ + y 2 ^ 2 • _ = v 2
    match_scalars <;> field_simp <;> ring
  · exact absurd rfl hj

/-- A parabola is determined by three points. -/
theorem quad_of {M : Type} [AddCommGroup M] [Module F M] {y : Fin 4 → F} (hy : Function.Injective y)
    {v : Fin 4 → M} {a b c : M} (h : ∀ j, v j = a + y j • b + y j ^ 2 • c) :
    quad0 y v = a ∧ quad1 y v = b ∧ quad2 y v = c := by
  have h01 : y 0 - y 1 ≠ 0 := sub_ne_zero.mpr (hy.ne (by decide))
  have h02 : y 0 - y 2 ≠ 0 := sub_ne_zero.mpr (hy.ne (by decide))
  have h12 : y 1 - y 2 ≠ 0 := sub_ne_zero.mpr (hy.ne (by decide))
  have h10 : y 1 - y 0 ≠ 0 := sub_ne_zero.mpr (hy.ne (by decide))
  have h20 : y 2 - y 0 ≠ 0 := sub_ne_zero.mpr (hy.ne (by decide))
  have h21 : y 2 - y 1 ≠ 0 := sub_ne_zero.mpr (hy.ne (by decide))
  unfold quad0 quad1 quad2
  simp only [h]
  refine ⟨?_, ?_, ?_⟩ <;> · match_scalars <;> field_simp <;> ring

/-- A cubic with four zeros is zero. -/
theorem cubic_zero {y : Fin 4 → F} (hy : Function.Injective y) {a b c d : F}
    (h : ∀ j, a + y j * b + y j ^ 2 * c + y j ^ 3 * d = 0) : a = 0 ∧ b = 0 ∧ c = 0 ∧ d = 0 := by
  open Polynomial in
  set p : F[X] := C a + C b * X + C c * X ^ 2 + C d * X ^ 3 with hp
  have hdeg : p.natDegree ≤ 3 := by rw [hp]; compute_degree
  have h0 : p = 0 := by
    refine Polynomial.eq_zero_of_natDegree_lt_card_of_eval_eq_zero p hy (fun j => ?_) (by
      rw [Fintype.card_fin]; omega)
    rw [← h j, hp]
    simp
    ring
  have e : ∀ i, p.coeff i = 0 := fun i => by rw [h0, Polynomial.coeff_zero]
  refine ⟨?_, ?_, ?_, ?_⟩
  · simpa [hp, Polynomial.coeff_X, Polynomial.coeff_C] using e 0
  · simpa [hp, Polynomial.coeff_X, Polynomial.coeff_C] using e 1
  · simpa [hp, Polynomial.coeff_X, Polynomial.coeff_C] using e 2
  · simpa [hp, Polynomial.coeff_X, Polynomial.coeff_C] using e 3

/-- What is multiplied with the squares of the challenges. -/
def scaled (n : Nat) (x : Fin 4 → F) (w : Fin 4 → Rep F) (j : Fin 4) : Rep F := x j ^ 2 • up n (x j) (w j)

/-- If the coefficients of a round come from one parabola, then those of degree one are an opening with the
right inner product. -/
theorem step_witness {n : Nat} {x : Fin 4 → F} (hx : Apart x) (w : Fin 4 → Rep F)
    (hw : ∀ j, (w j).2.2 = ∑ i ∈ Finset.range n, (w j).1 i * (w j).2.1 i) (R P L : Rep F)
    (hs : ∀ j, Same (n + n) (R + x j ^ 2 • P + (x j ^ 2) ^ 2 • L) (scaled n x w j)) :
    P.2.2 = ∑ i ∈ Finset.range (n + n), P.1 i * P.2.1 i := by
  have hne := hx.1
  -- the coefficients of `g`
  have ha : ∀ i < n, ∀ j, x j * (w j).1 i = P.1 (n + i) + x j ^ 2 * P.1 i := by
    intro i hi
    have e : ∀ j, (-R.1 (n + i)) + x j ^ 2 * (R.1 i - P.1 (n + i)) + (x j ^ 2) ^ 2 * (P.1 i - L.1 (n + i))
        + (x j ^ 2) ^ 3 * L.1 i = 0 := by
      intro j
      have h1 := (hs j).1 i (by omega)
      have h2 := (hs j).1 (n + i) (by omega)
      simp only [scaled, up, Prod.fst_add, Prod.smul_fst, Pi.add_apply, Pi.smul_apply, smul_eq_mul, if_pos hi,
        if_neg (show ¬ n + i < n by omega), Nat.add_sub_cancel_left] at h1 h2
      have h3 : x j ^ 2 * ((x j)⁻¹ * (w j).1 i) = x j * (w j).1 i := by
        have := hne j
        field_simp
      rw [h3] at h1
      linear_combination (x j ^ 2) * h1 - h2
    obtain ⟨e0, e1, e2, e3⟩ := cubic_zero hx.2 e
    intro j
    have h1 := (hs j).1 i (by omega)
    simp only [scaled, up, Prod.fst_add, Prod.smul_fst, Pi.add_apply, Pi.smul_apply, smul_eq_mul, if_pos hi] at h1
    have h3 : x j ^ 2 * ((x j)⁻¹ * (w j).1 i) = x j * (w j).1 i := by
      have := hne j
      field_simp
    rw [h3] at h1
    linear_combination e1 - h1 + (x j ^ 2) ^ 2 * e3
  -- the coefficients of `h`
  have hb : ∀ i < n, ∀ j, x j * (w j).2.1 i = P.2.1 i + x j ^ 2 * P.2.1 (n + i) := by
    intro i hi
    have e : ∀ j, (-R.2.1 i) + x j ^ 2 * (R.2.1 (n + i) - P.2.1 i) + (x j ^ 2) ^ 2 * (P.2.1 (n + i) - L.2.1 i)
        + (x j ^ 2) ^ 3 * L.2.1 (n + i) = 0 := by
      intro j
      have h1 := (hs j).2.1 i (by omega)
      have h2 := (hs j).2.1 (n + i) (by omega)
      simp only [scaled, up, Prod.snd_add, Prod.fst_add, Prod.smul_snd, Prod.smul_fst, Pi.add_apply, Pi.smul_apply,
        smul_eq_mul, if_pos hi, if_neg (show ¬ n + i < n by omega), Nat.add_sub_cancel_left] at h1 h2
      have h3 : x j ^ 2 * ((x j)⁻¹ * (w j).2.1 i) = x j * (w j).2.1 i := by
        have := hne j
        field_simp
      rw [h3] at h2
      linear_combination (x j ^ 2) * h2 - h1
    obtain ⟨e0, e1, e2, e3⟩ := cubic_zero hx.2 e
    intro j
    have h2 := (hs j).2.1 (n + i) (by omega)
    simp only [scaled, up, Prod.snd_add, Prod.fst_add, Prod.smul_snd, Prod.smul_fst, Pi.add_apply, Pi.smul_apply,
      smul_eq_mul, if_neg (show ¬ n + i < n by omega), Nat.add_sub_cancel_left] at h2
    have h3 : x j ^ 2 * ((x j)⁻¹ * (w j).2.1 i) = x j * (w j).2.1 i := by
      have := hne j
      field_simp
    rw [h3] at h2
    linear_combination e1 - h2 + (x j ^ 2) ^ 2 * e3
  -- the coefficient of `u`
  have hc : ∀ j, R.2.2 - ∑ i ∈ Finset.range n, P.1 (n + i) * P.2.1 i
      + x j ^ 2 * (P.2.2 - ∑ i ∈ Finset.range n, (P.1 i * P.2.1 i + P.1 (n + i) * P.2.1 (n + i)))
      + (x j ^ 2) ^ 2 * (L.2.2 - ∑ i ∈ Finset.range n, P.1 i * P.2.1 (n + i)) + (x j ^ 2) ^ 3 * 0 = 0 := by
    intro j
    have h1 := (hs j).2.2
    simp only [scaled, up, Prod.snd_add, Prod.smul_snd, smul_eq_mul] at h1
    rw [hw j, Finset.mul_sum] at h1
    have h2 : ∑ i ∈ Finset.range n, x j ^ 2 * ((w j).1 i * (w j).2.1 i) =
        ∑ i ∈ Finset.range n, (P.1 (n + i) * P.2.1 i + x j ^ 2 * (P.1 i * P.2.1 i + P.1 (n + i) * P.2.1 (n + i))
          + (x j ^ 2) ^ 2 * (P.1 i * P.2.1 (n + i))) := by
      refine Finset.sum_congr rfl fun i hi => ?_
      have hi := Finset.mem_range.mp hi
      linear_combination (x j * (w j).2.1 i) * ha i hi j + (P.1 (n + i) + x j ^ 2 * P.1 i) * hb i hi j
    rw [h2, Finset.sum_add_distrib, Finset.sum_add_distrib, ← Finset.mul_sum, ← Finset.mul_sum] at h1
    linear_combination h1
  obtain ⟨-, e1, -, -⟩ := cubic_zero hx.2 hc
  rw [Finset.sum_range_add, ← Finset.sum_add_distrib]
  exact sub_eq_zero.mp e1

/-- What is extracted: an opening, or a relation between the bases. -/
inductive Found (F : Type)
  | opening (r : Rep F)
  | relation (r : Rep F)

/-- One round of extraction from what was extracted for the four challenges. -/
def Found.step (n : Nat) (x : Fin 4 → F) (f : Fin 4 → Found F) : Found F :=
  match f 0, f 1, f 2, f 3 with
  | .relation r, _, _, _ => .relation (up n (x 0) r)
  | _, .relation r, _, _ => .relation (up n (x 1) r)
  | _, _, .relation r, _ => .relation (up n (x 2) r)
  | _, _, _, .relation r => .relation (up n (x 3) r)
  | .opening w0, .opening w1, .opening w2, .opening w3 =>
    let y := fun j => x j ^ 2
    let v := scaled n x ![w0, w1, w2, w3]
    let r := quad0 y v + y 3 • quad1 y v + y 3 ^ 2 • quad2 y v
    if Same (n + n) r (v 3) then .opening (quad1 y v) else .relation (r - v 3)

/-- The extractor: it sees the final scalars for every choice of challenges. -/
def extract : Nat → (List F → F × F) → (List F → Fin 4 → F) → Found F
  | 0, last, _ => .opening (fun _ => (last []).1, fun _ => (last []).2, (last []).1 * (last []).2)
  | k + 1, last, X => Found.step (2 ^ k) (X []) fun j =>
      extract k (fun xs => last (X [] j :: xs)) (fun xs => X (X [] j :: xs))

/-- What was extracted is what it should be, for `n` bases. -/
def Found.Good (n : Nat) (g h : Nat → G) (u P : G) : Found F → Prop
  | .opening r => value n g h u r = P ∧ r.2.2 = ∑ i ∈ Finset.range n, r.1 i * r.2.1 i
  | .relation r => value n g h u r = 0 ∧ ¬ Same n r 0

theorem up_same {n : Nat} {x : F} (hx : x ≠ 0) {r : Rep F} (h : ¬ Same n r 0) : ¬ Same (n + n) (up n x r) 0 := by
  intro hs
  refine h ⟨fun i hi => ?_, fun i hi => ?_, hs.2.2⟩
  · have := hs.1 i (by omega)
    simpa [up, hi, hx] using this
  · have := hs.2.1 i (by omega)
    simpa [up, hi, hx] using this

theorem Found.step_good {n : Nat} {x : Fin 4 → F} (hx : Apart x) {g h : Nat → G} {u P L R : G} {f : Fin 4 → Found F}
    (hf : ∀ j, (f j).Good n (half n (x j)⁻¹ (x j) g) (half n (x j) (x j)⁻¹ h) u
      (P + x j ^ 2 • L + ((x j)⁻¹ ^ 2) • R)) :
    (Found.step n x f).Good (n + n) g h u P := by
  have rel : ∀ j r, f j = .relation r → Found.Good (n + n) g h u P (.relation (up n (x j) r)) := by
    intro j r hj
    have := hf j
    rw [hj] at this
    exact ⟨(up_value ..).trans this.1, up_same (hx.1 j) this.2⟩
  unfold Found.step
  split
  · exact rel 0 _ ‹f 0 = Found.relation _›
  · exact rel 1 _ ‹f 1 = Found.relation _›
  · exact rel 2 _ ‹f 2 = Found.relation _›
  · exact rel 3 _ ‹f 3 = Found.relation _›
  · rename_i w0 w1 w2 w3 h0 h1 h2 h3
    set w : Fin 4 → Rep F := ![w0, w1, w2, w3] with hw
    have hfw : ∀ j, f j = .opening (w j) := by
      intro j
      fin_cases j
      · exact h0
      · exact h1
      · exact h2
      · exact h3
    have hv : ∀ j, value (n + n) g h u (scaled n x w j) = R + x j ^ 2 • P + (x j ^ 2) ^ 2 • L := by
      intro j
      have := hf j
      rw [hfw j] at this
      rw [scaled, value_smul, up_value, this.1]
      have e : x j ^ 2 * (x j)⁻¹ ^ 2 = 1 := by
        have := hx.1 j
        field_simp
      calc x j ^ 2 • (P + x j ^ 2 • L + ((x j)⁻¹ ^ 2) • R)
          = (x j ^ 2 * (x j)⁻¹ ^ 2) • R + x j ^ 2 • P + (x j ^ 2) ^ 2 • L := by module
        _ = _ := by rw [e, one_smul]
    have lin : ∀ a b c : F, value (n + n) g h u (a • scaled n x w 0 + b • scaled n x w 1 + c • scaled n x w 2) =
        a • value (n + n) g h u (scaled n x w 0) + b • value (n + n) g h u (scaled n x w 1)
          + c • value (n + n) g h u (scaled n x w 2) := by
      intro a b c
      simp only [value_add, value_smul]
    obtain ⟨q0, q1, q2⟩ := quad_of hx.2 (v := fun j => value (n + n) g h u (scaled n x w j)) hv
    have q0' : value (n + n) g h u (quad0 (fun j => x j ^ 2) (scaled n x w)) = R := (lin _ _ _).trans q0
    have q1' : value (n + n) g h u (quad1 (fun j => x j ^ 2) (scaled n x w)) = P := (lin _ _ _).trans q1
    have q2' : value (n + n) g h u (quad2 (fun j => x j ^ 2) (scaled n x w)) = L := (lin _ _ _).trans q2
    dsimp only
    split
    · rename_i hs
      refine ⟨q1', step_witness hx w (fun j => ?_) (quad0 (fun j => x j ^ 2) (scaled n x w)) _
        (quad2 (fun j => x j ^ 2) (scaled n x w)) fun j => ?_⟩
      · have := hf j
        rw [hfw j] at this
        exact this.2
      · by_cases hj : j = 3
        · subst hj; exact hs
        · have := quad_at hx.2 (scaled n x w) j hj
          rw [this]
          exact ⟨fun _ _ => rfl, fun _ _ => rfl, rfl⟩
    · rename_i hs
      refine ⟨?_, fun h0 => hs ⟨fun i hi => ?_, fun i hi => ?_, ?_⟩⟩
      · rw [sub_eq_add_neg, value_add, ← neg_one_smul F, value_smul, value_add, value_add, value_smul, value_smul, q0', q1',
          q2', hv 3]
        module
      · exact sub_eq_zero.mp (h0.1 i hi)
      · exact sub_eq_zero.mp (h0.2.1 i hi)
      · exact sub_eq_zero.mp h0.2.2

/-! ### The verifier's equation, round by round -/

/-- The equation that the verifier checks, with the bases as functions. -/
theorem extract_good (k : Nat) (g h : Nat → G) (u P : G) (s : Replies F G) (X : List F → Fin 4 → F)
    (hX : ∀ past, Apart (X past))
    (hacc : ∀ xs, xs.length = k → OnTree X xs →
      ∑ i ∈ Finset.range (2 ^ k), ((s.last xs).1 * (sRec xs).getD i 0) • g i
        + ∑ i ∈ Finset.range (2 ^ k), ((s.last xs).2 * (sRec (xs.map fun x => x⁻¹)).getD i 0) • h i
        + ((s.last xs).1 * (s.last xs).2) • u =
      ((List.range k).map fun i => (xs.getD i 0 ^ 2) • (s.send (xs.take i)).1).sum
        + ((List.range k).map fun i => ((xs.getD i 0)⁻¹ ^ 2) • (s.send (xs.take i)).2).sum + P) :
    (extract k s.last X).Good (2 ^ k) g h u P := by
  induction k generalizing g h P s X with
  | zero =>
    have := hacc [] rfl (fun i h => absurd h (by simp))
    simp [sRec] at this
    simp [extract, Found.Good, value, this]
  | succ k ih =>
    rw [pow_succ, mul_two]
    refine Found.step_good (L := (s.send []).1) (R := (s.send []).2) (hX []) fun j => ?_
    refine ih _ _ _ ⟨fun xs => s.send (X [] j :: xs), fun xs => s.last (X [] j :: xs)⟩ _
      (fun past => hX _) fun xs hl ht => ?_
    have hxs := hacc (X [] j :: xs) (by simp [hl]) (by
      intro i hi
      cases i with
      | zero => exact ⟨j, rfl⟩
      | succ i => exact ht i (by simpa using hi))
    set x := X [] j
    have fold : ∀ (c y z : F) (l : List F) (g : Nat → G), l.length = 2 ^ k →
        ∑ i ∈ Finset.range (2 ^ (k + 1)), (c * (l.map (y * ·) ++ l.map (z * ·)).getD i 0) • g i =
          ∑ i ∈ Finset.range (2 ^ k), (c * l.getD i 0) • half (2 ^ k) y z g i := by
      intro c y z l g hl
      rw [pow_succ, mul_two, Finset.sum_range_add, ← Finset.sum_add_distrib]
      refine Finset.sum_congr rfl fun i hi => ?_
      have hi := Finset.mem_range.mp hi
      rw [List.getD_append _ _ _ _ (by simpa [hl] using hi), List.getD_append_right _ _ _ _ (by simp [hl]),
        List.length_map, hl, Nat.add_sub_cancel_left, map_mul_getD, map_mul_getD, half, Nat.add_comm (2 ^ k) i]
      module
    simp only [List.map_cons, sRec, inv_inv] at hxs
    rw [fold _ _ _ _ _ (by simp [hl]), fold _ _ _ _ _ (by simp [hl]), List.range_succ_eq_map] at hxs
    simp only [List.map_cons, List.map_map, List.sum_cons, List.getD_cons_zero, List.take_zero] at hxs
    rw [hxs]
    have e1 : ((List.range k).map ((fun i => ((x :: xs).getD i 0 ^ 2) • (s.send ((x :: xs).take i)).1) ∘ Nat.succ)) =
        (List.range k).map fun i => (xs.getD i 0 ^ 2) • (s.send (x :: xs.take i)).1 := rfl
    have e2 : ((List.range k).map ((fun i => (((x :: xs).getD i 0)⁻¹ ^ 2) • (s.send ((x :: xs).take i)).2) ∘ Nat.succ)) =
        (List.range k).map fun i => ((xs.getD i 0)⁻¹ ^ 2) • (s.send (x :: xs.take i)).2 := rfl
    rw [e1, e2]
    abel

end Zkp.Bp
