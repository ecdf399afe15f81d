/- Property C36: Marlin places every variable on its own domain point. -/
import Verif.Proof.MarlinPlace
import Verif.Proof.F17Family

set_option linter.unusedSectionVars false

namespace Zkp.Marlin

open Polynomial

variable {F : Type} [Field F] [DecidableEq F]

/-- What is wanted for given numbers of inputs (with the leading one) and private variables: the prover's
polynomial `z` exists, the indexer maps the columns to different domain points, and at the point of each
column `z` has the value of that variable. -/
def Placed (mk : Nat → Option (Domain F)) (inputs witness : List F) (r : F) : Prop :=
  ∀ D H, mk inputs.length = some D → mk (inputs.length + witness.length) = some H →
    ∃ (z : F[X]) (pos : Nat → Nat), zPoly H D inputs witness r = .ok z ∧
      (∀ j < inputs.length + witness.length, reindexBySubdomain H.size D.size j = .ok (pos j) ∧
        pos j < H.size ∧ z.eval (H.ω ^ pos j) = (inputs ++ witness).getD j 0) ∧
      ∀ i < inputs.length + witness.length, ∀ j < inputs.length + witness.length, pos i = pos j → i = j

/-- The full statement: for all inputs, witnesses and blinding values. -/
def C36_statement (mk : Nat → Option (Domain F)) : Prop :=
  ∀ (inputs witness : List F) (r : F), inputs ≠ [] → Placed mk inputs witness r

/-- What holds: if the number of inputs (with the leading one) is the size of the input domain, a power
of two.  Missing from the full statement: every other number of inputs, for which it is false
(`C36_misplaced`, `C36_aborts`). -/
theorem C36_partial {mk : Nat → Option (Domain F)} (hmk : MkOk mk) (inputs witness : List F) (r : F)
    (hpow : ∃ k, inputs.length = 2 ^ k) : Placed mk inputs witness r := by
  intro D H hD hH
  obtain ⟨p, hs⟩ := MkOk.isSub hmk hD hH (Nat.le_add_right _ _)
  have hn : D.size = inputs.length := by
    obtain ⟨k, hk⟩ := hpow
    have h1 := hmk.ge hD
    have h2 := hmk.least hD k (by omega)
    omega
  have hfit := hmk.ge hH
  obtain ⟨z, hz, hze⟩ := zPoly_ok hs inputs witness r (by omega)
  have hex : ∀ j, ∃ q, j < H.size → reindexBySubdomain H.size D.size j = .ok q ∧ q < H.size ∧
      (j < D.size → q = p * j) ∧ (D.size ≤ j → q % p ≠ 0 ∧ q - q / p - 1 = j - D.size) := by
    intro j
    by_cases hj : j < H.size
    · obtain ⟨q, hq⟩ := reindex_spec hs hj
      exact ⟨q, fun _ => hq⟩
    · exact ⟨0, fun h => absurd h hj⟩
  choose pos hpos using hex
  refine ⟨z, pos, hz, ?_, ?_⟩
  · intro j hj
    obtain ⟨h1, h2, h3, h4⟩ := hpos j (by omega)
    refine ⟨h1, h2, ?_⟩
    rw [hze _ h2]
    by_cases hjd : j < D.size
    · rw [h3 hjd, if_pos (by simp), Nat.mul_div_cancel_left _ hs.pos, List.getD_append _ _ _ _ (by omega)]
    · obtain ⟨h5, h6⟩ := h4 (by omega)
      rw [if_neg h5, h6, List.getD_append _ _ _ _ (by omega), List.getD_append_right _ _ _ _ (by omega), hn]
  · intro i hi j hj hij
    obtain ⟨-, -, i3, i4⟩ := hpos i (by omega)
    obtain ⟨-, -, j3, j4⟩ := hpos j (by omega)
    by_cases hid : i < D.size <;> by_cases hjd : j < D.size
    · have := i3 hid; have := j3 hjd
      exact Nat.eq_of_mul_eq_mul_left hs.pos (by omega)
    · exact absurd (by rw [← hij, i3 hid]; simp) (j4 (by omega)).1
    · exact absurd (by rw [hij, j3 hjd]; simp) (i4 (by omega)).1
    · have h5 := (i4 (by omega)).2
      have h6 := (j4 (by omega)).2
      rw [hij] at h5
      omega

/-- Two inputs (the one and 5) and three private variables over the field with 17 elements. -/
example := C36_partial Ex17.mkAll_ok ([1, 5] : List F17) [7, 8, 9] 11 ⟨1, rfl⟩

/-- The violation in general: if there are fewer inputs than elements of the input domain, the indexer puts
the first private variable on a point of the input domain, where the prover's `z` is 0 whatever the value
of the variable is. -/
theorem C36_misplaced {mk : Nat → Option (Domain F)} (hmk : MkOk mk) (inputs witness : List F) (r : F)
    {D H : Domain F} (hD : mk inputs.length = some D) (hH : mk (inputs.length + witness.length) = some H)
    (hlt : inputs.length < D.size) (hfit : D.size + witness.length ≤ H.size) :
    ∃ z q, zPoly H D inputs witness r = .ok z ∧
      reindexBySubdomain H.size D.size inputs.length = .ok q ∧ z.eval (H.ω ^ q) = 0 := by
  obtain ⟨p, hs⟩ := MkOk.isSub hmk hD hH (Nat.le_add_right _ _)
  obtain ⟨z, hz, hze⟩ := zPoly_ok hs inputs witness r hfit
  have hle := hs.le
  obtain ⟨q, h1, h2, h3, -⟩ := reindex_spec hs (j := inputs.length) (by omega)
  refine ⟨z, q, hz, h1, ?_⟩
  rw [hze _ h2, h3 hlt, if_pos (by simp), Nat.mul_div_cancel_left _ hs.pos, List.getD_eq_default _ _ (by omega)]

/-- Three inputs, two private variables. -/
example := C36_misplaced Ex17.mkAll_ok ([1, 5, 6] : List F17) [7, 8] 11 (D := ⟨4, 4, 3⟩) (H := ⟨8, 2, 3⟩) rfl rfl
  (by decide) (by decide)

/-- A second violation: the prover aborts when the private variables do not fit beside the input domain,
although they fit beside the inputs. -/
theorem C36_aborts {mk : Nat → Option (Domain F)} (inputs witness : List F) (r : F)
    {D H : Domain F} (_ : mk inputs.length = some D) (_ : mk (inputs.length + witness.length) = some H)
    (hfit : H.size < D.size + witness.length) : zPoly H D inputs witness r = .error .panic :=
  zPoly_panic inputs witness r hfit

/-- Three inputs, one private variable. -/
example := C36_aborts (mk := Ex17.mkAll) ([1, 5, 6] : List F17) [7] 11 (D := ⟨4, 4, 3⟩) (H := ⟨4, 4, 3⟩) rfl rfl
  (by decide)

/-- The full statement is false, for domains that satisfy all assumptions: three inputs and two private
variables. -/
theorem C36_violated : MkOk Ex17.mkAll ∧ ¬ C36_statement Ex17.mkAll := by
  refine ⟨Ex17.mkAll_ok, fun h => ?_⟩
  obtain ⟨z, pos, hz, hpos, -⟩ := h [1, 5, 6] [7, 8] 11 (by simp) ⟨4, 4, 3⟩ ⟨8, 2, 3⟩ rfl rfl
  obtain ⟨z', q, hz', hq, h0⟩ := C36_misplaced Ex17.mkAll_ok ([1, 5, 6] : List F17) [7, 8] 11 (D := ⟨4, 4, 3⟩)
    (H := ⟨8, 2, 3⟩) rfl rfl (by decide) (by decide)
  obtain ⟨h1, -, h3⟩ := hpos 3 (by decide)
  rw [hz] at hz'
  injection hz' with hz'
  subst hz'
  have hq' : q = pos 3 := by
    have : (Except.ok q : Except Err Nat) = .ok (pos 3) := hq.symm.trans h1
    injection this
  subst hq'
  rw [h0] at h3
  exact absurd h3 (by decide)

/-- Exactly when the places agree for all values, given that there is a private variable: when the number of
inputs is a power of two. -/
theorem C36_exact {mk : Nat → Option (Domain F)} (hmk : MkOk mk) (n m : Nat) (hm : 1 ≤ m) {D H : Domain F}
    (hD : mk n = some D) (hH : mk (n + m) = some H) :
    (∀ (inputs witness : List F) (r : F), inputs.length = n → witness.length = m → Placed mk inputs witness r) ↔
    ∃ k, n = 2 ^ k := by
  constructor
  · intro h
    by_contra hc
    have hlt : n < D.size := by
      obtain ⟨k, hk⟩ := hmk.pow hD
      have h1 := hmk.ge hD
      rcases Nat.lt_or_ge n D.size with h2 | h2
      · exact h2
      · exact absurd ⟨k, by omega⟩ hc
    have h1 := h (List.replicate n 0) (List.replicate m 1) 0 (by simp) (by simp) D H (by simpa using hD) (by simpa using hH)
    obtain ⟨z, pos, hz, hpos, -⟩ := h1
    rcases Nat.lt_or_ge H.size (D.size + m) with hf | hf
    · rw [C36_aborts (mk := mk) _ _ 0 (by simpa using hD) (by simpa using hH) (by simpa using hf)] at hz
      cases hz
    · obtain ⟨z', q, hz', hq, h0⟩ := C36_misplaced hmk (List.replicate n (0 : F)) (List.replicate m 1) 0 (D := D) (H := H)
        (by simpa using hD) (by simpa using hH) (by simpa using hlt) (by simpa using hf)
      obtain ⟨h1, -, h3⟩ := hpos n (by simp; omega)
      rw [hz] at hz'
      obtain rfl := Except.ok.inj hz'
      rw [List.length_replicate, h1] at hq
      obtain rfl := Except.ok.inj hq
      rw [h0, List.getD_append_right _ _ _ _ (by simp), List.getD_eq_getElem _ _ (by simp; omega),
        List.getElem_replicate] at h3
      exact zero_ne_one h3
  · rintro ⟨k, hk⟩ inputs witness r h1 -
    exact C36_partial hmk inputs witness r ⟨k, by omega⟩

/-- Three inputs and two private variables. -/
example : ¬ ∀ (inputs witness : List F17) (r : F17), inputs.length = 3 → witness.length = 2 →
    Placed Ex17.mkAll inputs witness r := by
  rw [C36_exact Ex17.mkAll_ok 3 2 (by decide) (D := ⟨4, 4, 3⟩) (H := ⟨8, 2, 3⟩) rfl rfl]
  rintro ⟨_ | _ | k, hk⟩
  · simp at hk
  · simp at hk
  · rw [pow_add] at hk; omega

end Zkp.Marlin
