/- The scalar field order of BLS12-381 is prime (Lucas certificate).  Used only for the concrete
examples placed beside theorems about prime fields. -/
import Mathlib.NumberTheory.LucasPrimality
import Mathlib.Tactic.NormNum.Prime
import Mathlib.Data.Nat.Size

namespace Zkp

/-- The order of the BLS12-381 scalar field, used by the repository through the external crate `ark-bls12-381`. -/
def blsR : Nat := 0x73eda753299d7d483339d80809a1d80553bda402fffe5bfeffffffff00000001

/-- Modular power by repeated squaring. -/
def powMod (b n m : Nat) : Nat :=
  if h : n = 0 then 1 % m
  else
    let r := powMod (b * b % m) (n / 2) m
    if n % 2 = 1 then b * r % m else r
termination_by n
decreasing_by omega

theorem powMod_eq (b n m : Nat) : powMod b n m = b ^ n % m := by
  induction n using Nat.strong_induction_on generalizing b with
  | _ n ih =>
    rw [powMod]
    by_cases h : n = 0
    · subst h; simp
    · rw [dif_neg h]
      simp only [ih (n / 2) (by omega)]
      have e : (b * b % m) ^ (n / 2) % m = b ^ (2 * (n / 2)) % m := by
        rw [← Nat.pow_mod, ← pow_two, ← pow_mul]
      rw [e]
      by_cases h2 : n % 2 = 1
      · rw [if_pos h2, ← Nat.mul_mod_mod b _ m, Nat.mod_mod, Nat.mul_mod_mod, ← pow_succ']
        congr 2; omega
      · rw [if_neg h2]; congr 2; omega

/-- The same with fuel, so that the kernel can evaluate it. -/
def powModF : Nat → Nat → Nat → Nat → Nat
  | 0, _, _, m => 1 % m
  | f + 1, b, n, m => bif n == 0 then 1 % m else
      bif n % 2 == 1 then b * powModF f (b * b % m) (n / 2) m % m
      else powModF f (b * b % m) (n / 2) m

theorem powModF_eq (f b n m : Nat) (h : n < 2 ^ f) : powModF f b n m = powMod b n m := by
  induction f generalizing b n with
  | zero => 
    obtain rfl : n = 0 := by simpa using h
    rw [powMod]; simp [powModF]
  | succ f ih =>
    rw [powMod, powModF]
    by_cases h0 : n = 0
    · simp [h0]
    · have hlt : n / 2 < 2 ^ f := by rw [pow_succ] at h; omega
      rw [dif_neg h0, ih _ _ hlt]
      have : (n == 0) = false := by simpa using h0
      rw [this, cond_false]
      by_cases h2 : n % 2 = 1
      · simp [h2]
      · have : (n % 2 == 1) = false := by simpa using h2
        rw [this, cond_false, if_neg h2]

theorem pow_cast (p : Nat) (b n : Nat) (h : n < 2 ^ 256) :
    ((b : ZMod p) ^ n) = (powModF 256 b n p : Nat) := by
  rw [powModF_eq _ _ _ _ h, powMod_eq, ZMod.natCast_mod]; push_cast; rfl

theorem blsR_prime : Nat.Prime blsR := by
  have hlt : blsR < 2 ^ 256 := by unfold blsR; norm_num
  have fac : blsR - 1 = 2 ^ 32 * 3 * 11 * 19 * 10177 * 125527 * 859267 * 906349 ^ 2 * 2508409 *
      2529403 * 52437899 * 254760293 ^ 2 := by unfold blsR; norm_num
  have ne : ∀ k : Nat, k < 2 ^ 256 → powModF 256 7 k blsR ≠ 1 → ((7 : Nat) : ZMod blsR) ^ k ≠ 1 := by
    intro k hk h e
    rw [pow_cast _ _ _ hk] at e
    have hm : powModF 256 7 k blsR < blsR := by
      rw [powModF_eq _ _ _ _ hk, powMod_eq]; exact Nat.mod_lt _ (by unfold blsR; norm_num)
    have e1 : ((powModF 256 7 k blsR : Nat) : ZMod blsR) = ((1 : Nat) : ZMod blsR) := by
      rw [e]; simp
    rw [ZMod.natCast_eq_natCast_iff'] at e1
    rw [Nat.mod_eq_of_lt hm, Nat.mod_eq_of_lt (by unfold blsR; norm_num)] at e1
    exact h e1
  refine lucas_primality blsR ((7 : Nat) : ZMod blsR) ?_ ?_
  · rw [pow_cast _ _ _ (by omega)]
    have : powModF 256 7 (blsR - 1) blsR = 1 := by decide +kernel
    rw [this]; simp
  · intro q hq hd
    rw [fac] at hd
    have hcases : q = 2 ∨ q = 3 ∨ q = 11 ∨ q = 19 ∨ q = 10177 ∨ q = 125527 ∨ q = 859267 ∨
        q = 906349 ∨ q = 2508409 ∨ q = 2529403 ∨ q = 52437899 ∨ q = 254760293 := by
      have pe : ∀ r : Nat, r.Prime → q ∣ r → q = r := fun r hr h =>
        (Nat.prime_dvd_prime_iff_eq hq hr).mp h
      simp only [hq.dvd_mul] at hd
      rcases hd with ((((((((((( h | h) | h) | h) | h) | h) | h) | h) | h) | h) | h) | h)
      · have := pe 2 (by norm_num) (hq.dvd_of_dvd_pow h); simp [this]
      · have := pe 3 (by norm_num) h; simp [this]
      · have := pe 11 (by norm_num) h; simp [this]
      · have := pe 19 (by norm_num) h; simp [this]
      · have := pe 10177 (by norm_num) h; simp [this]
      · have := pe 125527 (by norm_num) h; simp [this]
      · have := pe 859267 (by norm_num) h; simp [this]
      · have := pe 906349 (by norm_num) (hq.dvd_of_dvd_pow h); simp [this]
      · have := pe 2508409 (by norm_num) h; simp [this]
      · have := pe 2529403 (by norm_num) h; simp [this]
      · have := pe 52437899 (by norm_num) h; simp [this]
      · have := pe 254760293 (by norm_num) (hq.dvd_of_dvd_pow h); simp [this]
    have hk : (blsR - 1) / q < 2 ^ 256 := lt_of_le_of_lt (Nat.div_le_self _ _) (by omega)
    refine ne _ hk ?_
    rcases hcases with rfl | rfl | rfl | rfl | rfl | rfl | rfl | rfl | rfl | rfl | rfl | rfl <;>
      decide +kernel

instance : Fact blsR.Prime := ⟨blsR_prime⟩

theorem size_blsR : Nat.size blsR = 255 := by
  apply Nat.le_antisymm
  · rw [Nat.size_le]; unfold blsR; norm_num
  · show 254 < _; rw [Nat.lt_size]; unfold blsR; norm_num

end Zkp
