/- The family of evaluation domains over the field with 97 elements, used in examples that need a domain of
16 elements. -/
import Verif.Proof.Domain
import Verif.Spec.MkDomain
import Mathlib.FieldTheory.Finite.Basic
import Mathlib.Tactic.NormNum.Prime

namespace Zkp.Ex97

abbrev F97 := ZMod 97

instance : Fact (Nat.Prime 97) := ⟨by norm_num⟩

theorem inv97 (x : F97) : x⁻¹ = x ^ 95 := by
  by_cases h : x = 0
  · simp [h]
  · refine inv_eq_of_mul_eq_one_right ?_
    rw [← pow_succ']
    exact ZMod.pow_card_sub_one_eq_one h

/-- Powers of two up to 16. -/
def mk97 (n : Nat) : Option (Domain F97) :=
  if n ≤ 1 then some ⟨1, 1, 5⟩ else if n ≤ 2 then some ⟨2, 96, 5⟩ else if n ≤ 4 then some ⟨4, 22, 5⟩
  else if n ≤ 8 then some ⟨8, 64, 5⟩ else if n ≤ 16 then some ⟨16, 8, 5⟩ else none

theorem prim_of {ζ : F97} {n : Nat} (hn : 0 < n) (h1 : ζ ^ n = 1) (h2 : ∀ l < n, 0 < l → ζ ^ l ≠ 1) :
    IsPrimitiveRoot ζ n := IsPrimitiveRoot.mk_of_lt _ hn h1 fun l h0 hl => h2 l hl h0

theorem mk97_cases {n : Nat} {D : Domain F97} (h : mk97 n = some D) :
    (n ≤ 1 ∧ D = ⟨1, 1, 5⟩) ∨ (1 < n ∧ n ≤ 2 ∧ D = ⟨2, 96, 5⟩) ∨ (2 < n ∧ n ≤ 4 ∧ D = ⟨4, 22, 5⟩) ∨
      (4 < n ∧ n ≤ 8 ∧ D = ⟨8, 64, 5⟩) ∨ (8 < n ∧ n ≤ 16 ∧ D = ⟨16, 8, 5⟩) := by
  unfold mk97 at h
  split at h
  · injection h with h; exact .inl ⟨by assumption, h.symm⟩
  split at h
  · injection h with h; exact .inr (.inl ⟨by omega, by assumption, h.symm⟩)
  split at h
  · injection h with h; exact .inr (.inr (.inl ⟨by omega, by assumption, h.symm⟩))
  split at h
  · injection h with h; exact .inr (.inr (.inr (.inl ⟨by omega, by assumption, h.symm⟩)))
  split at h
  · injection h with h; exact .inr (.inr (.inr (.inr ⟨by omega, by assumption, h.symm⟩)))
  · cases h

theorem mk97_ok : MkOk mk97 where
  valid := by
    intro n D h
    rcases mk97_cases h with ⟨_, rfl⟩ | ⟨_, _, rfl⟩ | ⟨_, _, rfl⟩ | ⟨_, _, rfl⟩ | ⟨_, _, rfl⟩
    all_goals exact ⟨by decide, prim_of (by decide) (by decide +kernel) (by decide +kernel), by decide +kernel,
      by decide +kernel⟩
  ge := by
    intro n D h
    rcases mk97_cases h with ⟨_, rfl⟩ | ⟨_, _, rfl⟩ | ⟨_, _, rfl⟩ | ⟨_, _, rfl⟩ | ⟨_, _, rfl⟩ <;> dsimp only <;> omega
  pow := by
    intro n D h
    rcases mk97_cases h with ⟨_, rfl⟩ | ⟨_, _, rfl⟩ | ⟨_, _, rfl⟩ | ⟨_, _, rfl⟩ | ⟨_, _, rfl⟩
    · exact ⟨0, rfl⟩
    · exact ⟨1, rfl⟩
    · exact ⟨2, rfl⟩
    · exact ⟨3, rfl⟩
    · exact ⟨4, rfl⟩
  least := by
    intro n D h k hk
    have key : ∀ j, 2 ^ j < n → 2 ^ (j + 1) ≤ 2 ^ k := by
      intro j hj
      have : j < k := (Nat.pow_lt_pow_iff_right (by norm_num : 1 < 2)).mp (hj.trans_le hk)
      exact Nat.pow_le_pow_right (by norm_num) this
    rcases mk97_cases h with ⟨h1, rfl⟩ | ⟨h1, _, rfl⟩ | ⟨h1, _, rfl⟩ | ⟨h1, _, rfl⟩ | ⟨h1, _, rfl⟩
    · exact Nat.one_le_two_pow
    · exact key 0 h1
    · exact key 1 h1
    · exact key 2 h1
    · exact key 3 h1
  sub := by
    intro n m D E h1 h2 h
    rcases mk97_cases h1 with ⟨_, rfl⟩ | ⟨_, _, rfl⟩ | ⟨_, _, rfl⟩ | ⟨_, _, rfl⟩ | ⟨_, _, rfl⟩ <;>
    rcases mk97_cases h2 with ⟨_, rfl⟩ | ⟨_, _, rfl⟩ | ⟨_, _, rfl⟩ | ⟨_, _, rfl⟩ | ⟨_, _, rfl⟩ <;>
    first
      | decide +kernel
      | (exfalso; revert h; decide)

theorem mk97_some {n : Nat} (h : n ≤ 16) : ∃ D, mk97 n = some D := by
  unfold mk97
  split
  · exact ⟨_, rfl⟩
  split
  · exact ⟨_, rfl⟩
  split
  · exact ⟨_, rfl⟩
  split
  · exact ⟨_, rfl⟩
  · exact ⟨_, rfl⟩

end Zkp.Ex97
