/- The family of evaluation domains over the field with 17 elements, used in examples. -/
import Verif.Proof.F17
import Verif.Spec.MkDomain

namespace Zkp.Ex17

/-- Powers of two up to 8. -/
def mkAll (n : Nat) : Option (Domain F17) :=
  if n ≤ 1 then some ⟨1, 1, 3⟩ else if n ≤ 2 then some ⟨2, 16, 3⟩ else if n ≤ 4 then some ⟨4, 4, 3⟩
  else if n ≤ 8 then some ⟨8, 2, 3⟩ else none

theorem prim_of {ζ : F17} {n : Nat} (hn : 0 < n) (h1 : ζ ^ n = 1) (h2 : ∀ l < n, 0 < l → ζ ^ l ≠ 1) :
    IsPrimitiveRoot ζ n := IsPrimitiveRoot.mk_of_lt _ hn h1 fun l h0 hl => h2 l hl h0

theorem mkAll_cases {n : Nat} {D : Domain F17} (h : mkAll n = some D) :
    (n ≤ 1 ∧ D = ⟨1, 1, 3⟩) ∨ (1 < n ∧ n ≤ 2 ∧ D = ⟨2, 16, 3⟩) ∨ (2 < n ∧ n ≤ 4 ∧ D = ⟨4, 4, 3⟩) ∨
      (4 < n ∧ n ≤ 8 ∧ D = ⟨8, 2, 3⟩) := by
  unfold mkAll at h
  split at h
  · injection h with h; exact .inl ⟨by assumption, h.symm⟩
  split at h
  · injection h with h; exact .inr (.inl ⟨by omega, by assumption, h.symm⟩)
  split at h
  · injection h with h; exact .inr (.inr (.inl ⟨by omega, by assumption, h.symm⟩))
  split at h
  · injection h with h; exact .inr (.inr (.inr ⟨by omega, by assumption, h.symm⟩))
  · cases h

theorem mkAll_ok : MkOk mkAll where
  valid := by
    intro n D h
    rcases mkAll_cases h with ⟨_, rfl⟩ | ⟨_, _, rfl⟩ | ⟨_, _, rfl⟩ | ⟨_, _, rfl⟩
    all_goals exact ⟨by decide, prim_of (by decide) (by decide) (by decide), by decide, by decide⟩
  ge := by
    intro n D h
    rcases mkAll_cases h with ⟨_, rfl⟩ | ⟨_, _, rfl⟩ | ⟨_, _, rfl⟩ | ⟨_, _, rfl⟩ <;> dsimp only <;> omega
  pow := by
    intro n D h
    rcases mkAll_cases h with ⟨_, rfl⟩ | ⟨_, _, rfl⟩ | ⟨_, _, rfl⟩ | ⟨_, _, rfl⟩
    · exact ⟨0, rfl⟩
    · exact ⟨1, rfl⟩
    · exact ⟨2, rfl⟩
    · exact ⟨3, rfl⟩
  least := by
    intro n D h k hk
    rcases mkAll_cases h with ⟨h1, rfl⟩ | ⟨h1, _, rfl⟩ | ⟨h1, _, rfl⟩ | ⟨h1, _, rfl⟩
    · exact Nat.one_le_two_pow
    · match k with
      | 0 => simp at hk; omega
      | k + 1 => dsimp only; rw [pow_succ]; have := Nat.one_le_two_pow (n := k); omega
    · match k with
      | 0 => simp at hk; omega
      | 1 => simp at hk; omega
      | k + 2 => dsimp only; rw [pow_succ, pow_succ]; have := Nat.one_le_two_pow (n := k); omega
    · match k with
      | 0 => simp at hk; omega
      | 1 => simp at hk; omega
      | 2 => simp at hk; omega
      | k + 3 => dsimp only; rw [pow_succ, pow_succ, pow_succ]; have := Nat.one_le_two_pow (n := k); omega
  sub := by
    intro n m D E h1 h2 h
    rcases mkAll_cases h1 with ⟨_, rfl⟩ | ⟨_, _, rfl⟩ | ⟨_, _, rfl⟩ | ⟨_, _, rfl⟩ <;>
    rcases mkAll_cases h2 with ⟨_, rfl⟩ | ⟨_, _, rfl⟩ | ⟨_, _, rfl⟩ | ⟨_, _, rfl⟩ <;>
    first
      | decide
      | (exfalso; revert h; decide)

end Zkp.Ex17
