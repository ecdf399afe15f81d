/- Property C93: the wrapper of the Ristretto group. -/
import Verif.Model.Ristretto
import Verif.Proof.EllPrime
import Verif.Proof.LC
import Mathlib.Algebra.BigOperators.Group.List.Basic
import Mathlib.FieldTheory.Finite.Basic

set_option linter.unusedSectionVars false
set_option linter.unusedSimpArgs false

namespace Zkp.Ristretto

/-- The order is prime, so `Fr` is a field. -/
theorem C93_prime : order.Prime := EllPrime.ell_prime

instance : Fact order.Prime := ⟨C93_prime⟩

variable {G : Type} [AddCommGroup G] [Module Fr G]

theorem leVal_leBytes (n v : Nat) (h : v < 256 ^ n) : leVal (leBytes n v) = v := by
  induction n generalizing v with
  | zero => simp only [pow_zero, Nat.lt_one_iff] at h; subst h; rfl
  | succ n ih =>
    have h2 : v / 256 < 256 ^ n := by
      rw [Nat.div_lt_iff_lt_mul (by norm_num), ← pow_succ]; exact h
    have ih := ih (v / 256) h2
    unfold leVal at ih ⊢
    rw [leBytes, List.foldr_cons, ih]
    have : (UInt8.ofNat (v % 256)).toNat = v % 256 := by simp
    rw [this]
    omega

theorem leVal_append (a b : List UInt8) : leVal (a ++ b) = leVal a + 256 ^ a.length * leVal b := by
  induction a with
  | nil => simp [leVal]
  | cons x a ih =>
    unfold leVal at ih ⊢
    rw [List.cons_append, List.foldr_cons, ih, List.foldr_cons, List.length_cons, pow_succ]
    ring

theorem scalar_roundtrip (x : Fr) : fromBytesModOrder (frBytes x) = x := by
  have : x.val < 256 ^ 32 := lt_trans (ZMod.val_lt x) (by unfold order; norm_num)
  rw [fromBytesModOrder, frBytes, leVal_leBytes _ _ this, ZMod.natCast_val, ZMod.cast_id]

/-- The sum of `nᵢ · 2^(64 i)`. -/
def words (l : List Nat) : Nat := l.foldr (fun x n => x + 2 ^ 64 * n) 0

theorem leVal_words (l : List Nat) (h : ∀ x ∈ l, x < 2 ^ 64) : leVal (l.flatMap (leBytes 8)) = words l := by
  induction l with
  | nil => rfl
  | cons x l ih =>
    have ih := ih fun y hy => h y (by simp [hy])
    rw [List.flatMap_cons, leVal_append, length_leBytes, leVal_leBytes _ _ (by have := h x (by simp); norm_num at this ⊢; exact this), ih]
    norm_num [words]

/-- The statement of C93: every operation of the curve traits is that of the group, and encodings can be read back. -/
structure C93_statement (e : Encoding G) (array : List UInt8 → List UInt8) (gen : G) : Prop where
  mul : ∀ (p : G) (x : Fr), mulAssign p x = x • p
  multi : ∀ (s : List Fr) (p : List G), multiscalarMul s p = (List.zipWith (fun x q => x • q) s p).sum
  affine : ∀ (p : G) (n : Nat), affineMul p n = if n < order then some (n • p) else none
  projective : ∀ (p : G) (l : List Nat), (∀ x ∈ l, x < 2 ^ 64) →
    projectiveMul p l = if l.length = 4 ∧ words l < order then some (words l • p) else none
  mixed : ∀ p q : G, addMixed p q = p + q
  sum : ∀ l : List G, Ristretto.sum l = l.sum
  read : ∀ (p : G) rest, read e (write e p ++ rest) = some (p, rest)
  deserialize : ∀ (p : G) rest, deserialize e (serialize array e p ++ rest) = some (p, rest)
  double : ∀ p : G, Ristretto.double p = some (p + p)
  normalize : ∀ l : List G, batchNormalizationIntoAffine l = some l
  normalized : ∀ p : G, isNormalized p = some true
  generator : (projectiveGenerator : Option G) = some gen
  cofactor : ∀ p : G, mulByCofactor p = words COFACTOR • p
  cofactorInv : ∀ p : G, mulByCofactorInv (mulByCofactor p) = some p

/-- What is assumed of the encoding of points in `curve25519-dalek`: 32 bytes, from which the point can be read back. -/
structure Encoding.Good (e : Encoding G) : Prop where
  length : ∀ p, (e.compress p).length = 32
  back : ∀ p, e.decompress (e.compress p) = some p

theorem read_good (e : Encoding G) (he : e.Good) (p : G) (rest : List UInt8) : Ristretto.read e (e.compress p ++ rest) = some (p, rest) := by
  unfold Ristretto.read
  rw [if_neg (by rw [List.length_append, he.length]; omega), List.take_left' (he.length p), List.drop_left' (he.length p), he.back]
  rfl

/-- C93, what does hold: multiplication by scalars, by numbers and by words; multi-scalar multiplication, which ignores the
longer argument's rest; addition, sums and zero; reading what was written. Numbers that are not reduced and slices that do not
have four words panic. -/
theorem C93_partial (e : Encoding G) (he : e.Good) :
    (∀ (p : G) (x : Fr), mulAssign p x = x • p) ∧
    (∀ (s : List Fr) (p : List G), multiscalarMul s p = (List.zipWith (fun x q => x • q) s p).sum) ∧
    (∀ (p : G) (n : Nat), affineMul p n = if n < order then some (n • p) else none) ∧
    (∀ (p : G) (l : List Nat), (∀ x ∈ l, x < 2 ^ 64) →
      projectiveMul p l = if l.length = 4 ∧ words l < order then some (words l • p) else none) ∧
    (∀ p q : G, addMixed p q = p + q) ∧ (∀ l : List G, Ristretto.sum l = l.sum) ∧
    (∀ [DecidableEq G] (p : G), isZero p = true ↔ ∀ q, q + p = q) ∧
    (∀ (p : G) rest, Ristretto.read e (write e p ++ rest) = some (p, rest)) ∧
    (∀ p q : G, write e p = write e q ↔ p = q) := by
  have mul : ∀ (p : G) (x : Fr), mulAssign p x = x • p := fun p x => by rw [mulAssign, scalar_roundtrip]
  refine ⟨mul, fun s p => ?_, fun p n => ?_, fun p l hl => ?_, fun _ _ => rfl, fun l => ?_, fun p => ?_,
    fun p rest => read_good e he p rest, fun p q => ⟨fun h => ?_, fun h => by rw [h]⟩⟩
  · unfold multiscalarMul
    simp only [scalar_roundtrip, List.map_id']
    congr 1
    induction s generalizing p with
    | nil => simp
    | cons x s ih =>
      cases p with
      | nil => simp
      | cons q p =>
        rw [List.length_cons, List.length_cons, Nat.succ_min_succ, List.take_succ_cons, List.take_succ_cons,
          List.zipWith_cons_cons, List.zipWith_cons_cons, ih]
  · unfold affineMul frFromRepr
    split_ifs with h
    · rw [Option.map_some, mul, Nat.cast_smul_eq_nsmul]
    · rfl
  · unfold projectiveMul fromCanonicalBytes
    rw [leVal_words l hl]
    by_cases h4 : l.length = 4
    · rw [if_neg (by simp [h4])]
      by_cases hlt : words l < order
      · rw [if_pos ⟨lt_trans hlt (by unfold order; norm_num), hlt⟩, if_pos ⟨h4, hlt⟩, Option.map_some, Nat.cast_smul_eq_nsmul]
      · rw [if_neg fun h => hlt h.2, if_neg fun h => hlt h.2]
        rfl
    · rw [if_pos h4, if_neg fun h => h4 h.1]
  · unfold Ristretto.sum zero
    rw [List.sum_eq_foldl]
  · unfold isZero zero
    simp only [beq_iff_eq]
    exact ⟨fun h q => by rw [h, add_zero], fun h => by simpa using h 0⟩
  · have h1 := read_good e he p []
    have h2 := read_good e he q []
    unfold write at h
    rw [h, h2] at h1
    simpa using h1.symm

/-- C93 is violated: doubling, normalizing, the generator and the inverse of the cofactor panic for every point, and multiplying
by the cofactor multiplies by 8, not by the constant `COFACTOR` (0), nor by the cofactor of a group of prime order (1). -/
theorem C93_violated (e : Encoding G) (array : List UInt8 → List UInt8) (gen : G) :
    (∀ p : G, double p = none ∧ isNormalized p = none ∧ mulByCofactorInv p = none ∧ mulByCofactorToProjective p = none) ∧
    (∀ l : List G, batchNormalization l = none ∧ batchNormalizationIntoAffine l = none) ∧
    (projectiveGenerator : Option G) = none ∧
    (∀ p : G, mulByCofactor p = 8 • p ∧ (p ≠ 0 → mulByCofactor p ≠ words COFACTOR • p ∧ mulByCofactor p ≠ p)) ∧
    ¬ C93_statement e array gen := by
  refine ⟨fun p => ⟨rfl, rfl, rfl, rfl⟩, fun l => ⟨rfl, rfl⟩, rfl, fun p => ?_, fun h => nomatch h.generator⟩
  have h8 : ∀ p : G, mulByCofactor p = (8 : Fr) • p := fun p => by rw [mulByCofactor, mulAssign, scalar_roundtrip]
  refine ⟨?_, fun hp => ⟨fun h => ?_, fun h => ?_⟩⟩
  · rw [h8, ← Nat.cast_smul_eq_nsmul Fr 8 p]
    rfl
  · rw [h8, show words COFACTOR = 0 by rfl, zero_smul] at h
    rcases smul_eq_zero.1 h with h | h
    · exact absurd h (by decide +kernel)
    · exact hp h
  · rw [h8] at h
    have : (7 : Fr) • p = 0 := by
      have e7 : (7 : Fr) = 8 - 1 := by norm_num
      rw [e7, sub_smul, one_smul, h, sub_self]
    rcases smul_eq_zero.1 this with h | h
    · exact absurd h (by decide +kernel)
    · exact hp h

/-- `serialize` and `deserialize` fit together, and `serialized_size` is right, if arrays are written without their length. If
the length comes first, as for slices, the size is wrong and at most one point can be read back. -/
theorem C93_serialize (e : Encoding G) (he : e.Good) :
    (∀ (p : G) rest, deserialize e (serialize id e p ++ rest) = some (p, rest) ∧ (serialize id e p).length = serializedSize) ∧
    (∀ p : G, (serialize lengthFirst e p).length = serializedSize + 8) ∧
    (∀ (p q : G) rest rest' r r', deserialize e (serialize lengthFirst e p ++ rest) = some (p, r) →
      deserialize e (serialize lengthFirst e q ++ rest') = some (q, r') →
      (∀ b b' : List UInt8, b.length = 32 → b'.length = 32 → e.decompress b = e.decompress b' → e.decompress b ≠ none → b = b') →
      p = q) := by
  refine ⟨fun p rest => ⟨read_good e he p rest, he.length p⟩, fun p => ?_, fun p q rest rest' r r' hp hq hcanon => ?_⟩
  · simp [serialize, lengthFirst, length_leBytes, he.length, serializedSize]
  · have key : ∀ (p : G) rest r, deserialize e (serialize lengthFirst e p ++ rest) = some (p, r) →
        e.compress p = leBytes 8 32 ++ (e.compress p).take 24 := by
      intro p rest r h
      unfold deserialize Ristretto.read serialize lengthFirst at h
      rw [he.length] at h
      split_ifs at h
      have htake : (leBytes 8 32 ++ e.compress p ++ rest).take 32 = leBytes 8 32 ++ (e.compress p).take 24 := by
        rw [List.append_assoc, List.take_append, length_leBytes, List.take_of_length_le (by rw [length_leBytes]; omega),
          List.take_append_of_le_length (by rw [he.length]; omega)]
      rw [htake] at h
      obtain ⟨p', hp', h⟩ := Option.map_eq_some_iff.1 h
      have : p' = p := by simpa using congrArg Prod.fst h
      subst this
      refine hcanon _ _ (he.length _) ?_ (by rw [he.back, hp']) (by rw [he.back]; simp)
      rw [List.length_append, length_leBytes, List.length_take, he.length]
      rfl
    have kp := key p rest r hp
    have kq := key q rest' r' hq
    have rep : ∀ b : List UInt8, b.length = 32 → b = leBytes 8 32 ++ b.take 24 →
        b = leBytes 8 32 ++ (leBytes 8 32 ++ (leBytes 8 32 ++ leBytes 8 32)) := by
      intro b hb h
      have t : ∀ k, k ≤ 24 → b.take (8 + k) = leBytes 8 32 ++ b.take k := fun k hk => by
        conv_lhs => rw [h]
        rw [List.take_append, length_leBytes, List.take_of_length_le (by rw [length_leBytes]; omega), List.take_take]
        congr 2
        omega
      have t0 := t 0 (by omega)
      have t1 := t 8 (by omega)
      have t2 := t 16 (by omega)
      have t3 := t 24 (by omega)
      rw [List.take_of_length_le (by omega)] at t3
      rw [t3, t2, t1, t0]
      simp
    have hpq : e.compress p = e.compress q := by rw [rep _ (he.length p) kp, rep _ (he.length q) kq]
    have := he.back p
    rw [hpq, he.back q] at this
    simpa using this.symm

/-- A group of this order with an encoding: the scalars themselves in 32 bytes. -/
def exEncoding : Encoding Fr := ⟨frBytes, fun bs => if bs.length = 32 ∧ leVal bs < order then some (fromBytesModOrder bs) else none⟩

theorem exGood : exEncoding.Good := by
  refine ⟨fun p => length_leBytes _ _, fun p => ?_⟩
  have h : p.val < 256 ^ 32 := lt_trans (ZMod.val_lt p) (by unfold order; norm_num)
  unfold exEncoding
  simp only
  rw [if_pos ⟨length_leBytes _ _, by rw [frBytes, leVal_leBytes _ _ h]; exact ZMod.val_lt p⟩, scalar_roundtrip]

example : exEncoding.Good ∧ (1 : Fr) ≠ 0 ∧ projectiveMul (5 : Fr) [3, 0, 0, 0] = some 15 ∧
    projectiveMul (5 : Fr) [0, 0, 0, 2 ^ 61] = none ∧ multiscalarMul [2, 3, 4] [(5 : Fr), 7] = 31 := by
  refine ⟨exGood, one_ne_zero, ?_, ?_, ?_⟩
  · rw [(C93_partial exEncoding exGood).2.2.2.1 _ _ (by decide)]
    decide +kernel
  · rw [(C93_partial exEncoding exGood).2.2.2.1 _ _ (by decide)]
    decide +kernel
  · rw [(C93_partial exEncoding exGood).2.1]
    decide +kernel

theorem leVal_inj (b b' : List UInt8) (hl : b.length = b'.length) (h : leVal b = leVal b') : b = b' := by
  induction b generalizing b' with
  | nil => exact (List.length_eq_zero_iff.1 hl.symm).symm
  | cons x b ih =>
    cases b' with
    | nil => simp at hl
    | cons x' b' =>
      have e1 : leVal (x :: b) = x.toNat + 256 * leVal b := rfl
      have e2 : leVal (x' :: b') = x'.toNat + 256 * leVal b' := rfl
      rw [e1, e2] at h
      have l1 := x.toNat_lt
      have l2 := x'.toNat_lt
      rw [ih b' (by simpa using hl) (by omega), UInt8.toNat_inj.1 (show x.toNat = x'.toNat by omega)]

/-- `C93_serialize`: encodings of this group are unique, and with the length first exactly one point is read back, but with
eight bytes left over. -/
example : (∀ b b' : List UInt8, b.length = 32 → b'.length = 32 → exEncoding.decompress b = exEncoding.decompress b' →
      exEncoding.decompress b ≠ none → b = b') ∧
    ∃ p : Fr, deserialize exEncoding (serialize lengthFirst exEncoding p) = some (p, leBytes 8 32) := by
  refine ⟨fun b b' hb hb' h hn => ?_, ⟨((32 * (1 + 2 ^ 64 + 2 ^ 128 + 2 ^ 192) : Nat) : Fr), by decide +kernel⟩⟩
  unfold exEncoding at h hn
  simp only at h hn
  split_ifs at h hn with h1 h2
  · have := Option.some.inj h
    unfold fromBytesModOrder at this
    rw [ZMod.natCast_eq_natCast_iff', Nat.mod_eq_of_lt h1.2, Nat.mod_eq_of_lt h2.2] at this
    exact leVal_inj b b' (by omega) this
  · exact absurd rfl hn

end Zkp.Ristretto
