/- The scalar field order of BN254 is prime (Lucas certificates). It is the modulus that /repo/gadgets/src/hashes/rescue.rs:22
names. -/
import Verif.Proof.BlsPrime
import Mathlib.Data.Nat.Prime.Basic
import Mathlib.Algebra.BigOperators.Associated

namespace Zkp

/-- A Lucas certificate: the prime factors of `p - 1` and an element of order `p - 1`. -/
theorem lucas_list (p a : Nat) (fs : List Nat) (hp : p < 2 ^ 256) (h1 : 1 < p) (hprod : fs.prod = p - 1)
    (hfs : ∀ q ∈ fs, q.Prime) (h2 : powModF 256 a (p - 1) p = 1) (h3 : ∀ q ∈ fs, powModF 256 a ((p - 1) / q) p ≠ 1) :
    p.Prime := by
  refine lucas_primality p (a : ZMod p) ?_ ?_
  · rw [pow_cast _ _ _ (by omega), h2]; simp
  · intro q hq hd
    have hmem : q ∈ fs := by
      rw [← hprod] at hd
      obtain ⟨r, hr, hd⟩ := (Prime.dvd_prod_iff hq.prime).1 hd
      rwa [(Nat.prime_dvd_prime_iff_eq hq (hfs r hr)).1 hd]
    have hk : (p - 1) / q < 2 ^ 256 := lt_of_le_of_lt (Nat.div_le_self _ _) (by omega)
    intro e
    rw [pow_cast _ _ _ hk] at e
    have hm : powModF 256 a ((p - 1) / q) p < p := by
      rw [powModF_eq _ _ _ _ hk, powMod_eq]; exact Nat.mod_lt _ (by omega)
    have e1 : ((powModF 256 a ((p - 1) / q) p : Nat) : ZMod p) = ((1 : Nat) : ZMod p) := by rw [e]; simp
    rw [ZMod.natCast_eq_natCast_iff', Nat.mod_eq_of_lt hm, Nat.mod_eq_of_lt h1] at e1
    exact h3 q hmem e1

/-- rescue.rs:22: the modulus for which the exponents are meant. -/
def bnR : Nat := 0x30644e72e131a029b85045b68181585d2833e84879b9709143e1f593f0000001

theorem prime_a : Nat.Prime 12048837557 :=
  lucas_list _ 2 [2, 2, 7, 7, 661, 93001] (by norm_num) (by norm_num) (by norm_num)
    (by intro q hq; fin_cases hq <;> norm_num) (by decide +kernel) (by decide +kernel)

theorem prime_b : Nat.Prime 5156902474397 :=
  lucas_list _ 2 [2, 2, 107, 12048837557] (by norm_num) (by norm_num) (by norm_num)
    (by intro q hq; fin_cases hq <;> first | exact prime_a | norm_num) (by decide +kernel) (by decide +kernel)

theorem prime_c : Nat.Prime 1670836401704629 :=
  lucas_list _ 2 [2, 2, 3, 3, 3, 3, 5156902474397] (by norm_num) (by norm_num) (by norm_num)
    (by intro q hq; fin_cases hq <;> first | exact prime_b | norm_num) (by decide +kernel) (by decide +kernel)

theorem prime_d : Nat.Prime 639533339 :=
  lucas_list _ 2 [2, 229, 853, 1637] (by norm_num) (by norm_num) (by norm_num)
    (by intro q hq; fin_cases hq <;> norm_num) (by decide +kernel) (by decide +kernel)

theorem prime_e : Nat.Prime 65865678001877903 :=
  lucas_list _ 5 [2, 83, 379, 1637, 639533339] (by norm_num) (by norm_num) (by norm_num)
    (by intro q hq; fin_cases hq <;> first | exact prime_d | norm_num) (by decide +kernel) (by decide +kernel)

theorem prime_f : Nat.Prime 13818364434197438864469338081 :=
  lucas_list _ 3 [2, 2, 2, 2, 2, 5, 823, 1593227, 65865678001877903] (by norm_num) (by norm_num) (by norm_num)
    (by intro q hq; fin_cases hq <;> first | exact prime_e | norm_num) (by decide +kernel) (by decide +kernel)

theorem prime_g : Nat.Prime 405928799 :=
  lucas_list _ 22 [2, 11, 3691, 4999] (by norm_num) (by norm_num) (by norm_num)
    (by intro q hq; fin_cases hq <;> norm_num) (by decide +kernel) (by decide +kernel)

theorem bnR_prime : Nat.Prime bnR := by
  refine lucas_list _ 5 (List.replicate 28 2 ++
    [3, 3, 13, 29, 983, 11003, 237073, 405928799, 1670836401704629, 13818364434197438864469338081])
    (by unfold bnR; norm_num) (by unfold bnR; norm_num) (by unfold bnR; norm_num) ?_ (by decide +kernel) ?_
  · intro q hq
    rcases List.mem_append.1 hq with hq | hq
    · rw [List.eq_of_mem_replicate hq]; norm_num
    · fin_cases hq <;> first | exact prime_c | exact prime_f | exact prime_g | norm_num
  · intro q hq
    have : q ∈ [2, 3, 3, 13, 29, 983, 11003, 237073, 405928799, 1670836401704629, 13818364434197438864469338081] := by
      rcases List.mem_append.1 hq with hq | hq
      · rw [List.eq_of_mem_replicate hq]; exact List.mem_cons_self ..
      · exact List.mem_cons_of_mem _ hq
    exact (by decide +kernel : ∀ q ∈ [2, 3, 3, 13, 29, 983, 11003, 237073, 405928799, 1670836401704629,
      13818364434197438864469338081], powModF 256 5 ((bnR - 1) / q) bnR ≠ 1) q this

instance : Fact bnR.Prime := ⟨bnR_prime⟩

end Zkp
