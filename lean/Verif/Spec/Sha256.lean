/-
SHA-256, transcribed from FIPS 180-4 (sections 4.1.2, 4.2.2, 5.1.1, 5.2.1, 5.3.3, 6.2.2), on bit
strings and 32-bit words.  Nothing here refers to the circuit.
-/
import Verif.Spec.Words

namespace Zkp.Sha256

/-- FIPS 180-4, 4.1.2 (4.2). -/
def Ch (x y z : BitVec 32) : BitVec 32 := (x &&& y) ^^^ (~~~x &&& z)
/-- FIPS 180-4, 4.1.2 (4.3). -/
def Maj (x y z : BitVec 32) : BitVec 32 := (x &&& y) ^^^ (x &&& z) ^^^ (y &&& z)
/-- FIPS 180-4, 4.1.2 (4.4). -/
def bigSigma0 (x : BitVec 32) : BitVec 32 := x.rotateRight 2 ^^^ x.rotateRight 13 ^^^ x.rotateRight 22
/-- FIPS 180-4, 4.1.2 (4.5). -/
def bigSigma1 (x : BitVec 32) : BitVec 32 := x.rotateRight 6 ^^^ x.rotateRight 11 ^^^ x.rotateRight 25
/-- FIPS 180-4, 4.1.2 (4.6). -/
def sigma0 (x : BitVec 32) : BitVec 32 := x.rotateRight 7 ^^^ x.rotateRight 18 ^^^ (x >>> 3)
/-- FIPS 180-4, 4.1.2 (4.7). -/
def sigma1 (x : BitVec 32) : BitVec 32 := x.rotateRight 17 ^^^ x.rotateRight 19 ^^^ (x >>> 10)

/-- The first 64 primes. -/
def primes : List Nat :=
  [2, 3, 5, 7, 11, 13, 17, 19, 23, 29, 31, 37, 41, 43, 47, 53, 59, 61, 67, 71, 73, 79, 83, 89, 97,
   101, 103, 107, 109, 113, 127, 131, 137, 139, 149, 151, 157, 163, 167, 173, 179, 181, 191, 193,
   197, 199, 211, 223, 227, 229, 233, 239, 241, 251, 257, 263, 269, 271, 277, 281, 283, 293, 307,
   311]

/-- The largest `r ≤ 2^n` (searched bit by bit) with `p r`, for downward closed `p`. -/
def searchBits (p : Nat → Bool) : Nat → Nat → Nat
  | 0, acc => acc
  | n + 1, acc => searchBits p n (if p (acc + 2 ^ n) then acc + 2 ^ n else acc)

/-- FIPS 180-4, 4.2.2: the first thirty-two bits of the fractional parts of the cube roots of the
first sixty-four primes, i.e. `⌊2^32 · ∛p⌋ mod 2^32`. -/
def K : List (BitVec 32) :=
  primes.map fun q => BitVec.ofNat 32 (searchBits (fun r => r ^ 3 ≤ q * 2 ^ 96) 40 0)

/-- FIPS 180-4, 5.3.3: the first thirty-two bits of the fractional parts of the square roots of the
first eight primes, i.e. `⌊2^32 · √p⌋ mod 2^32`. -/
def H0 : List (BitVec 32) :=
  (primes.take 8).map fun q => BitVec.ofNat 32 (searchBits (fun r => r ^ 2 ≤ q * 2 ^ 64) 40 0)

/-- FIPS 180-4, 6.2.2 step 1: the schedule word number `t`,
`W_t = σ1(W_{t-2}) + W_{t-7} + σ0(W_{t-15}) + W_{t-16}`. -/
def extend (W : List (BitVec 32)) (t : Nat) : List (BitVec 32) :=
  W ++ [sigma1 (W.getD (t - 2) 0) + W.getD (t - 7) 0 + sigma0 (W.getD (t - 15) 0) +
    W.getD (t - 16) 0]

/-- FIPS 180-4, 6.2.2 step 1: the message schedule `W_0 .. W_63` (the words `t = 16, …, 63` are
appended to the sixteen message words). -/
def schedule (M : List (BitVec 32)) : List (BitVec 32) := (List.range' 16 48).foldl extend M

/-- The eight working variables. -/
structure St where
  (a b c d e f g h : BitVec 32)

/-- FIPS 180-4, 6.2.2 step 3. -/
def round (k w : BitVec 32) (s : St) : St :=
  let T1 := s.h + bigSigma1 s.e + Ch s.e s.f s.g + k + w
  let T2 := bigSigma0 s.a + Maj s.a s.b s.c
  ⟨T1 + T2, s.a, s.b, s.c, s.d + T1, s.e, s.f, s.g⟩

/-- FIPS 180-4, 6.2.2: one block; `M` are its sixteen words. -/
def compress (H : St) (M : List (BitVec 32)) : St :=
  let W := schedule M
  let s := (List.range 64).foldl (fun s t => round (K.getD t 0) (W.getD t 0) s) H
  ⟨H.a + s.a, H.b + s.b, H.c + s.c, H.d + s.d, H.e + s.e, H.f + s.f, H.g + s.g, H.h + s.h⟩

/-- The hash value of a state: `H_0 ‖ … ‖ H_7` as bits, most significant bit of each word first. -/
def St.toBits (s : St) : List Bool :=
  [s.a, s.b, s.c, s.d, s.e, s.f, s.g, s.h].flatMap bitsBE

/-- FIPS 180-4, 5.3.3. -/
def iv : St := ⟨H0.getD 0 0, H0.getD 1 0, H0.getD 2 0, H0.getD 3 0, H0.getD 4 0, H0.getD 5 0,
  H0.getD 6 0, H0.getD 7 0⟩

/-- FIPS 180-4, 5.1.1: append `1`, then the least number `k` of zeros with
`ℓ + 1 + k ≡ 448 (mod 512)`, then `ℓ` as 64 bits, most significant first. -/
def pad (m : List Bool) : List Bool :=
  let l := m.length
  m ++ [true] ++ List.replicate ((448 + 512 - (l + 1) % 512) % 512) false ++
    ((List.range 64).reverse.map fun i => l.testBit i)

/-- FIPS 180-4, 6.2: the hash of a bit string. -/
def hash (m : List Bool) : List Bool :=
  ((chunks 512 (pad m)).foldl (fun s block => compress s ((chunks 32 block).map wordBE)) iv).toBits

end Zkp.Sha256
